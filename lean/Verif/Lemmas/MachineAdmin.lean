import Verif.Lemmas.Machine
import Verif.Lemmas.Sums
import Verif.Lemmas.Reach
import Verif.Lemmas.Utf8
/-!
# Instructions on small accounts, and the opening of escrows, in the reference semantics
-/

namespace Verif
open Spec

theorem flag_iff {b : Nat} : (boolTypeTryFrom b).isSome = true ↔ b = 0 ∨ b = 1 := by
  unfold boolTypeTryFrom
  split <;> simp_all

theorem url_iff {b : Bytes} : urlInRange b = true ↔ b.length < 2 ^ 32 ∧ Text b := by
  unfold urlInRange
  simp only [Bool.and_eq_true, decide_eq_true_eq, u32Bound_eq, utf8_iff]
  exact Iff.rfl

theorem proof_iff {l : List Bytes} : proofInRange l = true ↔ l.length < 2 ^ 32 ∧ ∀ x ∈ l, x.length = 32 := by
  unfold proofInRange isHash32
  simp only [Bool.and_eq_true, decide_eq_true_eq, u32Bound_eq, List.all_eq_true, beq_iff_eq]
  exact Iff.rfl

theorem climb_eq (H : Bytes → Bytes) (proof : List Bytes) (x : Bytes) : verifyLoop H proof x = climb H proof x := by
  induction proof generalizing x with
  | nil => rfl
  | cons p ps ih =>
    unfold verifyLoop climb
    rw [List.foldl_cons]
    unfold innerString
    split
    · rw [ih]; rfl
    · rw [ih]; rfl

theorem does_initFixedArgs {w : World} {tx : Tx} {a : InitFixedArgsAcc} {w' : World} :
    (∃ rc, handleInitFixedArgs w tx a = .ok (w', rc)) ↔ DoesInitFixedArgs w tx a w' := by
  constructor
  · rintro ⟨rc, h⟩
    have F := handleInitFixedArgs_iff.1 h
    have := F.range.2
    rw [u128Bound_eq] at this
    exact ⟨F.signed, ⟨F.price, this⟩, flag_iff.1 F.flag, F.fresh, F.post⟩
  · intro D
    refine ⟨_, handleInitFixedArgs_iff.2 ⟨⟨?_, ?_⟩, D.signed, D.fresh, D.price.1, flag_iff.2 D.flag, D.post, rfl⟩⟩
    · have := D.flag; rw [u8Bound_eq]; omega
    · rw [u128Bound_eq]; exact D.price.2

theorem does_closeFixedArgs {w : World} {tx : Tx} {a : CloseFixedArgsAcc} {w' : World} :
    (∃ rc, handleCloseFixedArgs w tx a = .ok (w', rc)) ↔ ∃ c, DoesCloseFixedArgs w tx a w' c := by
  constructor
  · rintro ⟨rc, h⟩
    obtain ⟨c, F⟩ := handleCloseFixedArgs_iff.1 h
    exact ⟨c, ⟨F.account, F.owner⟩, F.signed, F.post⟩
  · rintro ⟨c, D⟩
    exact ⟨_, handleCloseFixedArgs_iff.2 ⟨c, D.account.1, D.account.2, D.signed, D.post, rfl⟩⟩

theorem does_createMerkle {w : World} (W : WInv w) {tx : Tx} {a : CreateMerkleAcc} {w' : World} :
    (∃ rc, handleCreateMerkle w tx a = .ok (w', rc)) ↔ ∃ p, DoesCreateMerkle w tx a w' p := by
  constructor
  · rintro ⟨rc, h⟩
    obtain ⟨p, F⟩ := handleCreateMerkle_iff.1 h
    have S := W.core.sale _ _ F.presale
    have hv := F.range.2
    rw [u64Bound_eq] at hv
    exact ⟨p, ⟨F.presale, F.owner⟩, F.signed, ⟨by simpa [isHash32] using F.range.1, hv⟩, F.fresh,
      S.progress_early.1 F.progress, S.pinv.static.whitelist_cases.1.1 F.mode, F.post⟩
  · rintro ⟨p, D⟩
    have S := W.core.sale _ _ D.presale.1
    refine ⟨_, handleCreateMerkle_iff.2 ⟨p, ⟨by simpa [isHash32] using D.fits.1, ?_⟩, D.presale.1, D.fresh, D.signed,
      D.presale.2, S.clock, S.progress_early.2 D.notOver, S.pinv.static.whitelist_cases.1.2 D.mode, D.post, rfl⟩⟩
    rw [u64Bound_eq]; exact D.fits.2

theorem does_closeMerkle {w : World} (W : WInv w) {tx : Tx} {a : CloseMerkleAcc} {w' : World} :
    (∃ rc, handleCloseMerkle w tx a = .ok (w', rc)) ↔ ∃ p c, DoesCloseMerkle w tx a w' p c := by
  constructor
  · rintro ⟨rc, h⟩
    obtain ⟨p, c, F⟩ := handleCloseMerkle_iff.1 h
    have S := W.core.sale _ _ F.presale
    exact ⟨p, c, ⟨F.presale, F.owner⟩, ⟨F.config, F.belongs⟩, F.receiver, F.signed,
      fun h => F.progress (S.progress_ongoing.2 h), F.post⟩
  · rintro ⟨p, c, D⟩
    have S := W.core.sale _ _ D.presale.1
    exact ⟨_, handleCloseMerkle_iff.2 ⟨p, c, D.presale.1, D.account.1, D.account.2, D.receiver, D.signed,
      D.presale.2, S.clock, fun h => D.phase (S.progress_ongoing.1 h), D.post, rfl⟩⟩

theorem does_createOperator {w : World} {tx : Tx} {a : CreateOperatorAcc} {w' : World} :
    (∃ rc, handleCreateOperator w tx a = .ok (w', rc)) ↔ DoesCreateOperator w tx a w' := by
  constructor
  · rintro ⟨rc, h⟩
    have F := handleCreateOperator_iff.1 h
    exact ⟨F.signed, F.fresh, F.post⟩
  · intro D
    exact ⟨_, handleCreateOperator_iff.2 ⟨D.fresh, D.signed, D.post, rfl⟩⟩

theorem does_revokeOperator {w : World} {tx : Tx} {a : RevokeOperatorAcc} {w' : World} :
    (∃ rc, handleRevokeOperator w tx a = .ok (w', rc)) ↔ ∃ o, DoesRevokeOperator w tx a w' o := by
  constructor
  · rintro ⟨rc, h⟩
    obtain ⟨o, F⟩ := handleRevokeOperator_iff.1 h
    exact ⟨o, ⟨F.account, F.creator⟩, F.signed, F.post⟩
  · rintro ⟨o, D⟩
    exact ⟨_, handleRevokeOperator_iff.2 ⟨o, D.account.1, D.account.2, D.signed, D.post, rfl⟩⟩

theorem does_createMetadata {w : World} (W : WInv w) {tx : Tx} {a : CreateMetadataAcc} {w' : World} :
    (∃ rc, handleCreateMetadata w tx a = .ok (w', rc)) ↔ ∃ p, DoesCreateMetadata w tx a w' p := by
  constructor
  · rintro ⟨rc, h⟩
    obtain ⟨p, F⟩ := handleCreateMetadata_iff.1 h
    have S := W.core.sale _ _ F.presale
    have hw := S.pinv.static.whitelist_cases
    have hm := F.mode
    rw [hw.1, hw.2.1] at hm
    exact ⟨p, ⟨F.presale, F.owner⟩, F.signed, url_iff.1 F.range, F.fresh, hm, S.progress_early.1 F.progress.symm, F.post⟩
  · rintro ⟨p, D⟩
    have S := W.core.sale _ _ D.presale.1
    have hw := S.pinv.static.whitelist_cases
    exact ⟨_, handleCreateMetadata_iff.2 ⟨p, url_iff.2 D.text, D.presale.1, D.presale.2, D.fresh, D.signed,
      by rw [hw.1, hw.2.1]; exact D.mode, S.clock, (S.progress_early.2 D.notOver).symm, D.post, rfl⟩⟩

theorem does_closeMetadata {w : World} {tx : Tx} {a : CloseMetadataAcc} {w' : World} :
    (∃ rc, handleCloseMetadata w tx a = .ok (w', rc)) ↔ ∃ p c, DoesCloseMetadata w tx a w' p c := by
  constructor
  · rintro ⟨rc, h⟩
    obtain ⟨p, c, F⟩ := handleCloseMetadata_iff.1 h
    exact ⟨p, c, ⟨F.presale, F.owner⟩, ⟨F.account, F.belongs⟩, F.receiver, F.signed, F.post⟩
  · rintro ⟨p, c, D⟩
    exact ⟨_, handleCloseMetadata_iff.2 ⟨p, c, D.presale.1, D.presale.2, D.account.1, D.account.2, D.receiver, D.signed,
      D.post, rfl⟩⟩

/-! ## Escrows -/

theorem opens_iff {w : World} (W : WInv w) {key owner : Addr} {i : Nat} {cap? : Option Nat} {w' : World}
    {p : Presale} (hp : w.presales key = some p) :
    (∃ rc r p', CreateEscrowFacts w p key owner i cap? w' rc r p') ↔
    ∃ r, (∀ c, cap? = some c → CapAllowed r c) ∧
      Opens w key owner i (cap?.getD r.buyerMaximumDepositCap) w' p r := by
  have S := W.core.sale _ _ hp
  constructor
  · rintro ⟨rc, r, p', F⟩
    obtain ⟨r1, h1, h2, h3, rfl⟩ := increaseEscrowCount_iff.1 F.update
    have hr := getRegistry_eq_ok.1 F.registry
    rw [hr] at h1; cases h1
    rw [u64Bound_eq] at h3
    exact ⟨r, F.cap, hp, ⟨hr, F.index⟩, S.progress_ongoing.1 F.progress, F.fresh, h3, F.post⟩
  · rintro ⟨r, hc, O⟩
    have hle : r.totalEscrow ≤ p.totalEscrow := by
      rw [S.pinv.book.totEsc]; exact le_lsum (g := Registry.totalEscrow) O.registry.1
    have h3 : p.totalEscrow + 1 < u64Bound := by rw [u64Bound_eq]; exact O.countable
    exact ⟨_, r, _, O.fresh, S.clock, S.progress_ongoing.2 O.ongoing, O.registry.2, getRegistry_eq_ok.2 O.registry.1, hc,
      increaseEscrowCount_iff.2 ⟨r, O.registry.1, by omega, h3, rfl⟩, O.post, rfl⟩

theorem does_createEscrow {w : World} (W : WInv w) {tx : Tx} {a : CreateEscrowAcc} {w' : World} :
    (∃ rc, handleCreateEscrow w tx a = .ok (w', rc)) ↔ ∃ p r, DoesCreateEscrow w tx a w' p r := by
  constructor
  · rintro ⟨rc, h⟩
    obtain ⟨p, r, p', F, G⟩ := handleCreateEscrow_iff.1 h
    have S := W.core.sale _ _ F.presale
    obtain ⟨r, _, O⟩ := (opens_iff W F.presale).1 ⟨_, _, _, G⟩
    exact ⟨p, r, F.signed, S.pinv.static.whitelist_cases.2.2.1 F.mode, O⟩
  · rintro ⟨p, r, D⟩
    have S := W.core.sale _ _ D.opens.presale
    obtain ⟨rc, r', p', G⟩ := (opens_iff (cap? := none) W D.opens.presale).2 ⟨r, by simp, D.opens⟩
    exact ⟨rc, handleCreateEscrow_iff.2 ⟨p, r', p', ⟨D.opens.presale, D.signed,
      S.pinv.static.whitelist_cases.2.2.2 D.mode⟩, G⟩⟩

/-- The bounds of index and cap on the wire follow. -/
theorem opens_range {w : World} (W : WInv w) {key owner : Addr} {i cap : Nat} {w' : World} {p : Presale} {r : Registry}
    (O : Opens w key owner i cap w' p r) (hc : CapAllowed r cap) : i < u8Bound ∧ cap < u64Bound := by
  have P := (W.core.sale _ _ O.presale).pinv
  have h1 := P.static.countLe
  have h2 := O.registry
  have h3 := (P.static.reg _ _ h2.1 h2.2).2.2.2.1
  have h4 := P.static.maxLt
  have h5 := hc.2.2
  rw [u8Bound_eq]
  omega

theorem does_createEscrowCreator {w : World} (W : WInv w) {tx : Tx} {a : CreateEscrowCreatorAcc} {w' : World} :
    (∃ rc, handleCreateEscrowCreator w tx a = .ok (w', rc)) ↔ ∃ p r o, DoesCreateEscrowCreator w tx a w' p r o := by
  constructor
  · rintro ⟨rc, h⟩
    obtain ⟨p, o, r, p', F, G⟩ := handleCreateEscrowCreator_iff.1 h
    have S := W.core.sale _ _ F.presale
    obtain ⟨r, hc, O⟩ := (opens_iff W F.presale).1 ⟨_, _, _, G⟩
    exact ⟨p, r, o, F.signed, S.pinv.static.whitelist_cases.2.1.1 F.mode, ⟨F.operator, F.owner, F.creator⟩,
      hc _ rfl, O⟩
  · rintro ⟨p, r, o, D⟩
    have S := W.core.sale _ _ D.opens.presale
    obtain ⟨rc, r', p', G⟩ := (opens_iff (cap? := some a.depositCap) W D.opens.presale).2
      ⟨r, fun c hc => by cases hc; exact D.cap, D.opens⟩
    exact ⟨rc, handleCreateEscrowCreator_iff.2 ⟨p, o, r', p', ⟨opens_range W D.opens D.cap, D.opens.presale,
      D.operator.1, D.signed, S.pinv.static.whitelist_cases.2.1.2 D.mode, D.operator.2.1, D.operator.2.2⟩, G⟩⟩

theorem does_createEscrowMerkle {w : World} (W : WInv w) {tx : Tx} {a : CreateEscrowMerkleAcc} {w' : World} :
    (∃ rc, handleCreateEscrowMerkle w tx a = .ok (w', rc)) ↔ ∃ p r c, DoesCreateEscrowMerkle w tx a w' p r c := by
  have key : ∀ root, merkleVerify w.env.hash a.proof root (leafHash w.env.hash
      (nodeHash w.env.hash (w.env.keyBytes a.owner) a.registryIndex a.depositCap)) = true ↔
      climb w.env.hash a.proof (w.env.hash (0 :: w.env.hash
        (entryString (w.env.keyBytes a.owner) a.registryIndex a.depositCap))) = root := by
    intro root
    unfold merkleVerify
    rw [beq_iff_eq, climb_eq]
    rfl
  constructor
  · rintro ⟨rc, h⟩
    obtain ⟨p, c, r, p', F, G⟩ := handleCreateEscrowMerkle_iff.1 h
    have S := W.core.sale _ _ F.presale
    obtain ⟨r, hc, O⟩ := (opens_iff W F.presale).1 ⟨_, _, _, G⟩
    exact ⟨p, r, c, F.signed, S.pinv.static.whitelist_cases.1.1 F.mode, ⟨F.config, F.belongs⟩, proof_iff.1 F.range.2.2,
      (key _).1 F.proof, hc _ rfl, O⟩
  · rintro ⟨p, r, c, D⟩
    have S := W.core.sale _ _ D.opens.presale
    obtain ⟨rc, r', p', G⟩ := (opens_iff (cap? := some a.depositCap) W D.opens.presale).2
      ⟨r, fun c hc => by cases hc; exact D.cap, D.opens⟩
    obtain ⟨i1, i2⟩ := opens_range W D.opens D.cap
    exact ⟨rc, handleCreateEscrowMerkle_iff.2 ⟨p, c, r', p', ⟨⟨i1, i2, proof_iff.2 D.fits⟩, D.opens.presale,
      D.root.1, D.root.2, D.signed, S.pinv.static.whitelist_cases.1.2 D.mode, (key _).2 D.listed⟩, G⟩⟩

end Verif
