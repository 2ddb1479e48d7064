import Verif.Lemmas.Errors
/-!
# Error codes of the instructions on small accounts and of the opening of escrows
-/

namespace Verif
open Spec

theorem errs_initFixedArgs {w : World} {tx : Tx} {a : InitFixedArgsAcc} :
    Errs (Because w (.initFixedArgs a)) (handleInitFixedArgs w tx a) := by
  refine errs_reqx fun _ => errs_reqx fun _ => errs_reqx fun _ => errs_req (fun h => ?_) fun _ =>
    errs_req (fun h => ?_) fun _ => errs_pure _
  · show a.qPrice = 0
    omega
  · rw [flag_iff] at h
    show a.disableWithdraw ≠ 0 ∧ a.disableWithdraw ≠ 1
    omega

theorem errs_closeFixedArgs {S : PErr → Prop} {w : World} {tx : Tx} {a : CloseFixedArgsAcc} :
    Errs S (handleCloseFixedArgs w tx a) :=
  errs_loads fun _ _ => errs_reqx fun _ => errs_reqx fun _ => errs_pure _

theorem errs_createOperator {S : PErr → Prop} {w : World} {tx : Tx} {a : CreateOperatorAcc} :
    Errs S (handleCreateOperator w tx a) :=
  errs_reqx fun _ => errs_reqx fun _ => errs_pure _

theorem errs_revokeOperator {S : PErr → Prop} {w : World} {tx : Tx} {a : RevokeOperatorAcc} :
    Errs S (handleRevokeOperator w tx a) :=
  errs_loads fun _ _ => errs_reqx fun _ => errs_reqx fun _ => errs_pure _

theorem errs_closeMetadata {S : PErr → Prop} {w : World} {tx : Tx} {a : CloseMetadataAcc} :
    Errs S (handleCloseMetadata w tx a) :=
  errs_loads fun _ _ => errs_reqx fun _ => errs_loads fun _ _ => errs_reqx fun _ => errs_reqx fun _ =>
    errs_reqx fun _ => errs_pure _

theorem errs_createMerkle {w : World} (W : WInv w) {tx : Tx} {a : CreateMerkleAcc} :
    Errs (Because w (.createMerkle a)) (handleCreateMerkle w tx a) := by
  refine errs_reqx fun _ => errs_loads fun p hp => errs_reqx fun _ => errs_reqx fun _ =>
    errs_req (fun h => ⟨p, hp, h⟩) fun ho => ?_
  have S := W.core.sale _ _ hp
  obtain ⟨m, hm⟩ := S.pinv.static.whitelist
  have hw := S.pinv.static.whitelist_cases
  refine errs_time S.clock (errs_req (fun h => ⟨p, hp, ho, ?_⟩) fun ht => errs_known hm
    (errs_req (fun h => ⟨p, hp, ho, S.progress_early.1 ht, ?_⟩) fun _ => errs_pure _))
  · exact Classical.byContradiction fun hn => h (S.progress_early.2 hn)
  · intro h1
    rw [← hw.1, hm] at h1
    cases h1; exact h rfl

theorem errs_closeMerkle {w : World} (W : WInv w) {tx : Tx} {a : CloseMerkleAcc} :
    Errs (Because w (.closeMerkle a)) (handleCloseMerkle w tx a) := by
  refine errs_loads fun p hp => errs_loads fun _ _ => errs_reqx fun _ => errs_reqx fun _ => errs_reqx fun _ =>
    errs_req (fun h => ⟨p, hp, h⟩) fun ho => ?_
  have S := W.core.sale _ _ hp
  exact errs_time S.clock (errs_req (fun h => ⟨p, hp, ho, S.progress_ongoing.1 (Classical.byContradiction h)⟩)
    fun _ => errs_pure _)

theorem errs_createMetadata {w : World} (W : WInv w) {tx : Tx} {a : CreateMetadataAcc} :
    Errs (Because w (.createMetadata a)) (handleCreateMetadata w tx a) := by
  refine errs_reqx fun _ => errs_loads fun p hp => errs_reqx fun _ => errs_reqx fun _ => errs_reqx fun _ => ?_
  have S := W.core.sale _ _ hp
  obtain ⟨m, hm⟩ := S.pinv.static.whitelist
  have hw := S.pinv.static.whitelist_cases
  rw [hm] at hw
  simp only [Except.ok.injEq] at hw
  refine errs_known hm (errs_req (fun h => ⟨p, hp, ?_⟩) fun hl => errs_time S.clock (errs_req (fun h => ⟨p, hp, ?_⟩)
    fun _ => errs_pure _))
  · rw [hw.1, hw.2.1] at h
    show p.whitelistMode ≠ 1 ∧ p.whitelistMode ≠ 2
    omega
  · rw [hw.1, hw.2.1] at hl
    exact ⟨hl, Classical.byContradiction fun hn => h (S.progress_early.2 hn).symm⟩

/-! ## Escrows -/

theorem errs_open {w : World} (W : WInv w) {p : Presale} {key owner : Addr} {i : Nat} {cap? : Option Nat}
    (hp : w.presales key = some p) :
    Errs (OpenReason w p i cap?) (createEscrowAt w p key owner i cap?) := by
  have S := W.core.sale _ _ hp
  refine errs_reqx fun _ => errs_time S.clock (errs_bind ?_ fun _ _ => errs_pure _)
  refine errs_req (fun h ho => h (S.progress_ongoing.2 ho)) fun ho => ?_
  have ho := S.progress_ongoing.1 ho
  refine errs_req (fun h => ⟨ho, by omega⟩) fun hi => ?_
  obtain ⟨r, hr⟩ : ∃ r, p.registries[i]? = some r :=
    ⟨_, List.getElem?_eq_getElem (by have := S.pinv.static.countLe; have := S.pinv.static.len; omega)⟩
  refine errs_known (getRegistry_eq_ok.2 hr) ?_
  refine errs_bind ?_ fun _ hc => ?_
  · cases cap? with
    | none => exact errs_ok _
    | some c =>
      refine errs_req (fun h => ⟨ho, r, c, hr, rfl, fun h' => h h'.1⟩) fun _ =>
        errs_require fun h => ⟨ho, r, c, hr, rfl, fun h' => h h'.2⟩
  · refine errs_bind ?_ fun _ _ => errs_pure _
    have hle : r.totalEscrow ≤ p.totalEscrow := by
      rw [S.pinv.book.totEsc]; exact le_lsum (g := Registry.totalEscrow) hr
    by_cases hb : p.totalEscrow + 1 < u64Bound
    · exact errs_of_ok (increaseEscrowCount_iff.2 ⟨r, hr, by omega, hb, rfl⟩)
    · have hb' : 2 ^ 64 ≤ p.totalEscrow + 1 := by rw [u64Bound_eq] at hb; omega
      have key : OpenReason w p i cap? .mathOverflow := ⟨ho, hb'⟩
      unfold Presale.increaseEscrowCount
      refine errs_known (getRegistry_eq_ok.2 hr) (errs_bind ?_ fun _ _ => errs_bind ?_ fun _ _ => errs_pure _)
      · refine errs_bind ?_ fun _ _ => errs_pure _
        unfold add64; split
        · exact errs_ok _
        · exact errs_p key
      · unfold add64; split
        · exact errs_ok _
        · exact errs_p key

theorem errs_createEscrow {w : World} (W : WInv w) {tx : Tx} {a : CreateEscrowAcc} :
    Errs (Because w (.createEscrow a)) (handleCreateEscrow w tx a) := by
  refine errs_loads fun p hp => errs_reqx fun _ => ?_
  have S := W.core.sale _ _ hp
  obtain ⟨m, hm⟩ := S.pinv.static.whitelist
  have hw := (castWhitelist_permissioned hm).1
  refine errs_known hm (errs_req (fun h => ⟨p, hp, hw.1 (by simpa using h)⟩) fun h => ?_)
  refine (errs_open W hp).mono fun e he => ⟨p, hp, ?_⟩
  have hn : ¬ (p.whitelistMode = 1 ∨ p.whitelistMode = 2) := fun h' => by rw [hw.2 h'] at h; cases h
  have := S.pinv.static.countPos
  cases e <;> first | exact ⟨hn, he⟩ | skip
  · exact he.elim
  · exact absurd he.2 (by unfold DEFAULT_PERMISSIONLESS_REGISTRY_INDEX; omega)

theorem errs_createEscrowCreator {w : World} (W : WInv w) {tx : Tx} {a : CreateEscrowCreatorAcc} :
    Errs (Because w (.createEscrowCreator a)) (handleCreateEscrowCreator w tx a) := by
  refine errs_reqx fun _ => errs_loads fun p hp => errs_loads fun o ho => errs_reqx fun _ => ?_
  have S := W.core.sale _ _ hp
  obtain ⟨m, hm⟩ := S.pinv.static.whitelist
  have hw := S.pinv.static.whitelist_cases.2.1
  rw [hm, Except.ok.injEq] at hw
  refine errs_known hm (errs_req (fun h => ⟨p, o, hp, ho, fun h' => h (hw.2 h')⟩) fun h =>
    errs_req (fun h' => ⟨p, o, hp, ho, hw.1 h, fun x => h' x.1⟩) fun h1 =>
    errs_req (fun h' => ⟨p, o, hp, ho, hw.1 h, fun x => h' x.2⟩) fun h2 => ?_)
  refine (errs_open W hp).mono fun e he => ⟨p, o, hp, ho, ?_⟩
  cases e <;> first | exact ⟨hw.1 h, h1, h2, he⟩ | exact he.elim

theorem errs_createEscrowMerkle {w : World} (W : WInv w) {tx : Tx} {a : CreateEscrowMerkleAcc} :
    Errs (Because w (.createEscrowMerkle a)) (handleCreateEscrowMerkle w tx a) := by
  refine errs_reqx fun _ => errs_loads fun p hp => errs_loads fun c hc => errs_reqx fun _ => errs_reqx fun _ => ?_
  have S := W.core.sale _ _ hp
  obtain ⟨m, hm⟩ := S.pinv.static.whitelist
  have hw := S.pinv.static.whitelist_cases.1
  rw [hm, Except.ok.injEq] at hw
  refine errs_known hm (errs_req (fun h => ⟨p, c, hp, hc, fun h' => h (hw.2 h')⟩) fun h =>
    errs_req (fun h' => ⟨p, c, hp, hc, hw.1 h, fun x => h' ?_⟩) fun h1 => ?_)
  · unfold merkleVerify
    rw [climb_eq]
    exact beq_iff_eq.2 x
  · refine (errs_open W hp).mono fun e he => ⟨p, c, hp, hc, ?_⟩
    cases e <;> first | exact ⟨hw.1 h, he⟩ | exact he.elim

end Verif
