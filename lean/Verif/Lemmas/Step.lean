import Verif.Lemmas.Sums
/-!
# What a step does to the recorded state
-/

namespace Verif
open Spec

theorem AMap.set_self {K V : Type} [DecidableEq K] {m : AMap K V} {k : K} {v : V} (h : m.get? k = some v) :
    m.set k v = m := by
  induction m with
  | nil => simp [AMap.get?] at h
  | cons x m ih =>
    obtain ⟨k0, v0⟩ := x
    unfold AMap.get? at h
    unfold AMap.set
    by_cases hk : k0 = k
    · subst hk
      simp at h
      simp [h]
    · simp [hk] at h ⊢
      exact ih h

/-- The instructions opening an escrow of presale `a`. -/
def Ix.opens (a : Addr) : Ix → Prop
  | .createEscrow x => x.presale = a
  | .createEscrowCreator x => x.presale = a
  | .createEscrowMerkle x => x.presale = a
  | _ => False

/-- A successful instruction on presale `a`: the presale and all escrows afterwards. -/
inductive Act (w : World) (a : Addr) (p : Presale) : Tx → Ix → Presale → AMap Addr Escrow → Prop
  | opened {tx : Tx} {i : Ix} {owner : Addr} {idx cap : Nat} {r : Registry} (by_ : i.opens a)
      (fresh : w.escrows.get? (.escrow a owner idx) = none)
      (started : p.presaleStartTime ≤ w.clock.toNat) (open_ : w.clock.toNat < p.presaleEndTime)
      (index : idx < p.totalPresaleRegistryCount) (registry : p.registries[idx]? = some r)
      (capLe : cap ≤ r.buyerMaximumDepositCap)
      (whole : castWhitelistMode p.whitelistMode = .ok .permissionless → cap = r.buyerMaximumDepositCap) :
      Act w a p tx i (p.counted idx r)
        (w.escrows.set (.escrow a owner idx) (Escrow.initialized a owner w.clock.toNat idx cap))
  | deposit {tx : Tx} {x : DepositAcc} {e : Escrow} {d : DepositResult} {h : Handler} {quota : Nat} {r : Registry}
      (here : x.presale = a) (escrow : w.escrows.get? x.escrow = some e) (belongs : e.presale = a)
      (signed : tx.signed x.payer = true) (facts : DepositCoreFacts p e w.clock.toNat x.maxAmount d h quota r) :
      Act w a p tx (.deposit x) d.presale (w.escrows.set x.escrow d.escrow)
  | withdraw {tx : Tx} {x : WithdrawAcc} {e : Escrow} {p' : Presale} {e' : Escrow} {n : Nat} {h : Handler}
      {r : Registry} (here : x.presale = a) (escrow : w.escrows.get? x.escrow = some e) (belongs : e.presale = a)
      (owner : e.owner = x.owner) (signed : tx.signed x.owner = true)
      (facts : WithdrawCoreFacts p e w.clock.toNat x.maxAmount p' e' n h r) :
      Act w a p tx (.withdraw x) p' (w.escrows.set x.escrow e')
  | refreshed {tx : Tx} {x : RefreshAcc} {e : Escrow} {r : Registry}
      (here : x.presale = a) (escrow : w.escrows.get? x.escrow = some e) (belongs : e.presale = a)
      (registry : p.registries[e.registryIndex]? = some r)
      (over : p.presaleEndTime ≤ w.clock.toNat) (reached : p.presaleMinimumCap ≤ p.totalDeposit) :
      Act w a p tx (.refresh x) p
        (w.escrows.set x.escrow (e.accrued (claimableAt p r e w.clock.toNat) w.clock.toNat))
  | claimed {tx : Tx} {x : ClaimAcc} {e : Escrow} {r : Registry}
      (here : x.presale = a) (escrow : w.escrows.get? x.escrow = some e) (belongs : e.presale = a)
      (owner : e.owner = x.owner) (signed : tx.signed x.owner = true)
      (registry : p.registries[e.registryIndex]? = some r)
      (over : p.presaleEndTime ≤ w.clock.toNat) (reached : p.presaleMinimumCap ≤ p.totalDeposit) :
      Act w a p tx (.claim x)
        (p.claimed e.registryIndex r (claimableAt p r e w.clock.toNat - e.totalClaimedToken))
        (w.escrows.set x.escrow (e.accrued (claimableAt p r e w.clock.toNat) w.clock.toNat).paid)
  | refunded {tx : Tx} {x : RefundAcc} {e : Escrow} {r : Registry}
      (here : x.presale = a) (escrow : w.escrows.get? x.escrow = some e) (belongs : e.presale = a)
      (owner : e.owner = x.owner) (signed : tx.signed x.owner = true)
      (registry : p.registries[e.registryIndex]? = some r) (fresh : e.isRemainingQuoteWithdrawn = 0)
      (over : p.presaleEndTime ≤ w.clock.toNat)
      (why : p.totalDeposit < p.presaleMinimumCap ∨ (p.presaleMinimumCap ≤ p.totalDeposit ∧ p.presaleMode = 1)) :
      Act w a p tx (.refund x) (p.refunded e.registryIndex r (owedRefund p r e))
        (w.escrows.set x.escrow e.updateRemainingQuoteWithdrawn)
  | closed {tx : Tx} {x : CloseEscrowAcc} {e : Escrow} {r : Registry}
      (here : x.presale = a) (escrow : w.escrows.get? x.escrow = some e) (belongs : e.presale = a)
      (owner : e.owner = x.owner) (signed : tx.signed x.owner = true)
      (registry : p.registries[e.registryIndex]? = some r)
      (checks : closeChecks p e w.clock.toNat = .ok ()) :
      Act w a p tx (.closeEscrow x) (p.uncounted e.registryIndex r) (w.escrows.erase x.escrow)
  | creatorWithdrew {tx : Tx} {x : CreatorWithdrawAcc} (here : x.presale = a) (owner : p.owner = x.owner)
      (signed : tx.signed x.owner = true) (over : p.presaleEndTime ≤ w.clock.toNat)
      (first : p.hasCreatorWithdrawn = 0) :
      Act w a p tx (.creatorWithdraw x) p.updateCreatorWithdrawn w.escrows
  | collected {tx : Tx} {x : CollectFeeAcc} (here : x.presale = a) (owner : p.owner = x.owner)
      (signed : tx.signed x.owner = true) (over : p.presaleEndTime ≤ w.clock.toNat)
      (reached : p.presaleMinimumCap ≤ p.totalDeposit) (first : p.depositFeeCollected = 0) :
      Act w a p tx (.collectFee x) p.setDepositFeeCollected w.escrows
  | unsold {tx : Tx} {x : UnsoldAcc} (here : x.presale = a) (over : p.presaleEndTime ≤ w.clock.toNat)
      (reached : p.presaleMinimumCap ≤ p.totalDeposit) (first : p.isUnsoldTokenActionPerformed = 0) :
      Act w a p tx (.unsold x) p.setUnsoldTokenActionPerformed w.escrows

/-- A successful step leaves presales and escrows alone, creates a presale, or acts on one presale. -/
inductive Effect (w : World) (op : Op) (w' : World) : Prop
  | quiet (presales : w'.presales = w.presales) (escrows : w'.escrows = w.escrows) (clock : w.clock ≤ w'.clock)
  | create {tx : Tx} {x : InitPresaleAcc} {p : Presale} (op_ : op = .ix tx (.initPresale x))
      (fresh : w.presales x.presaleKey = none) (doc : Documented w.clock.toNat p)
      (presales : w'.presales = upd w.presales x.presaleKey (some p))
      (escrows : w'.escrows = w.escrows) (clock : w'.clock = w.clock)
  | act {tx : Tx} {i : Ix} {a : Addr} {p p' : Presale} {es' : AMap Addr Escrow} (op_ : op = .ix tx i)
      (presale : w.presales a = some p) (is : Act w a p tx i p' es')
      (presales : w'.presales = upd w.presales a (some p')) (escrows : w'.escrows = es')
      (clock : w'.clock = w.clock)

theorem List.set_self' {α : Type} {l : List α} {i : Nat} {r : α} (h : l[i]? = some r) : l.set i r = l := by
  obtain ⟨hlt, hv⟩ := List.getElem?_eq_some_iff.1 h
  subst hv
  exact List.set_getElem_self hlt

theorem Presale.claimed_zero {p : Presale} {i : Nat} {r : Registry} (h : p.registries[i]? = some r) :
    p.claimed i r 0 = p := by
  have : p.registries.set i r = p.registries := List.set_self' h
  cases p
  simp_all [Presale.claimed]

theorem createEscrow_effect {w w' : World} {tx : Tx} {i : Ix} {a owner : Addr} {idx : Nat} {cap? : Option Nat}
    {p p' : Presale} {r : Registry} {rc : Receipt} (hp : w.presales a = some p) (hi : i.opens a)
    (F : CreateEscrowFacts w p a owner idx cap? w' rc r p')
    (hw : castWhitelistMode p.whitelistMode = .ok .permissionless → cap? = none) : Effect w (.ix tx i) w' := by
  obtain ⟨r', hr', _, _, hp'⟩ := increaseEscrowCount_iff.1 F.update
  have hr := getRegistry_eq_ok.1 F.registry
  rw [hr'] at hr; cases hr
  obtain ⟨h1, h2⟩ := progress_ongoing.1 F.progress
  have hact : Act w a p tx i (p.counted idx r) _ := Act.opened (cap := cap?.getD r.buyerMaximumDepositCap) hi
    F.fresh h1 h2 F.index hr' ?_ ?_
  · refine Effect.act rfl hp hact ?_ ?_ ?_
    · rw [F.post, hp']
    · rw [F.post]
    · rw [F.post]
  · cases cap? with
    | none => exact Nat.le_refl _
    | some c => exact (F.cap c rfl).2.2
  · intro h; rw [hw h]; rfl

theorem step_effect {w : World} (W : WInv w) {op : Op} {w' : World} {rc : Receipt}
    (h : step w op = .ok (w', rc)) : Effect w op w' := by
  have C := W.core
  cases op with
  | tick s =>
    simp only [Verif.step, ok_eq_ok, Prod.mk.injEq] at h
    obtain ⟨rfl, _⟩ := h
    exact .quiet rfl rfl (by show w.clock ≤ w.clock + (s : Int); omega)
  | setTok a t =>
    simp only [Verif.step, bind_eq_ok, require_eq_ok, pure_eq_ok, exists_const, Prod.mk.injEq] at h
    obtain ⟨_, _, rfl, _⟩ := h
    exact .quiet rfl rfl (Int.le_refl _)
  | donate v n =>
    simp only [Verif.step, bind_eq_ok, require_eq_ok, load_eq_ok, pure_eq_ok, exists_const, Prod.mk.injEq] at h
    obtain ⟨t, _, _, rfl, _⟩ := h
    exact .quiet rfl rfl (Int.le_refl _)
  | freezeVault v b =>
    simp only [Verif.step, bind_eq_ok, load_eq_ok, pure_eq_ok, Prod.mk.injEq] at h
    obtain ⟨t, _, rfl, _⟩ := h
    exact .quiet rfl rfl (Int.le_refl _)
  | setMint a m =>
    simp only [Verif.step, bind_eq_ok, require_eq_ok, pure_eq_ok, exists_const, Prod.mk.injEq] at h
    obtain ⟨_, _, rfl, _⟩ := h
    exact .quiet rfl rfl (Int.le_refl _)
  | ix tx i =>
    replace h : execIx w tx i = .ok (w', rc) := h
    cases i
    case initFixedArgs a =>
      have F := handleInitFixedArgs_iff.1 h
      rw [F.post]; exact .quiet rfl rfl (Int.le_refl _)
    case closeFixedArgs a =>
      obtain ⟨x, F⟩ := handleCloseFixedArgs_iff.1 h
      rw [F.post]; exact .quiet rfl rfl (Int.le_refl _)
    case createMerkle a =>
      obtain ⟨p, F⟩ := handleCreateMerkle_iff.1 h
      rw [F.post]; exact .quiet rfl rfl (Int.le_refl _)
    case closeMerkle a =>
      obtain ⟨p, c, F⟩ := handleCloseMerkle_iff.1 h
      rw [F.post]; exact .quiet rfl rfl (Int.le_refl _)
    case createOperator a =>
      have F := handleCreateOperator_iff.1 h
      rw [F.post]; exact .quiet rfl rfl (Int.le_refl _)
    case revokeOperator a =>
      obtain ⟨o, F⟩ := handleRevokeOperator_iff.1 h
      rw [F.post]; exact .quiet rfl rfl (Int.le_refl _)
    case createMetadata a =>
      obtain ⟨p, F⟩ := handleCreateMetadata_iff.1 h
      rw [F.post]; exact .quiet rfl rfl (Int.le_refl _)
    case closeMetadata a =>
      obtain ⟨p, m, F⟩ := handleCloseMetadata_iff.1 h
      rw [F.post]; exact .quiet rfl rfl (Int.le_refl _)
    case initPresale a =>
      obtain ⟨bm, qm, p, remaining, supply, included, hooks, rest, tk, cpi, F⟩ := handleInitPresale_iff.1 h
      have G := F.created W
      exact .create rfl F.fresh.1 G.documented (by rw [F.post]) (by rw [F.post]) (by rw [F.post])
    case createEscrow a =>
      obtain ⟨p, r, p', G, F⟩ := handleCreateEscrow_iff.1 h
      exact createEscrow_effect G.presale rfl F (fun _ => rfl)
    case createEscrowCreator a =>
      obtain ⟨p, o, r, p', G, F⟩ := handleCreateEscrowCreator_iff.1 h
      exact createEscrow_effect G.presale rfl F (by rw [G.mode]; intro h; cases h)
    case createEscrowMerkle a =>
      obtain ⟨p, o, r, p', G, F⟩ := handleCreateEscrowMerkle_iff.1 h
      exact createEscrow_effect G.presale rfl F (by rw [G.mode]; intro h; cases h)
    case deposit a =>
      obtain ⟨p, m, e, d, inc, hooks, rest, tk, cpi, F⟩ := handleDeposit_iff.1 h
      obtain ⟨hd, quota, r, D⟩ := depositCore_iff.1 F.core
      exact .act rfl F.presale (.deposit rfl F.escrow F.belongs F.signed D) (by rw [F.post]) (by rw [F.post])
        (by rw [F.post])
    case withdraw a =>
      obtain ⟨p, m, e, p', e', x, hooks, rest, tk, cpi, ex, F⟩ := handleWithdraw_iff.1 h
      obtain ⟨hd, r, D⟩ := withdrawCore_iff.1 F.core
      exact .act rfl F.presale (.withdraw rfl F.escrow F.belongs.1 F.belongs.2 F.signed D) (by rw [F.post])
        (by rw [F.post]) (by rw [F.post])
    case claim a =>
      obtain ⟨p, m, e, hd, e1, ex, F⟩ := handleClaim_iff.1 h
      have S := C.sale _ _ F.presale
      obtain ⟨r, hr, E⟩ := S.pinv.escBook F.escrow F.belongs.1
      obtain ⟨_, h2, h3⟩ := progress_completed.1 F.progress
      have hacc := S.pinv.accrue F.escrow F.belongs.1 hr F.handler h2 h3
      rw [F.refresh] at hacc
      cases hacc
      have hpend : (e.accrued (claimableAt p r e w.clock.toNat) w.clock.toNat).pendingClaimToken =
          claimableAt p r e w.clock.toNat - e.totalClaimedToken := by
        have := E.taken_le h2 h3
        simp only [Escrow.accrued]
        omega
      have hact : Act w a.presale p tx (.claim a) _ _ :=
        .claimed rfl F.escrow F.belongs.1 F.belongs.2 F.signed hr h2 h3
      rcases F.out with ⟨_, p', e', hooks, rest, tk, cpi, g1, _, _, g4, _⟩ | ⟨g0, g4, _⟩
      · obtain ⟨r', hr', _, _, _, hp', he'⟩ := claim_iff.1 g1
        have : r' = r := by
          have h0 : p.registries[e.registryIndex]? = some r' := hr'
          rw [hr] at h0; cases h0; rfl
        subst this
        refine .act rfl F.presale hact ?_ ?_ ?_
        · rw [g4, hp', hpend]; rfl
        · rw [g4, he']
        · rw [g4]
      · refine .act rfl F.presale hact ?_ ?_ ?_
        · rw [hpend] at g0
          rw [g4, g0, Presale.claimed_zero hr, upd_eq_self F.presale]
        · rw [g4]
          show w.escrows.set _ _ = w.escrows.set _ _
          congr 1
          have : ∀ e : Escrow, e.pendingClaimToken = 0 → e.paid = e := by
            intro e he
            cases e
            simp only at he
            simp [Escrow.paid, he]
          exact (this _ g0).symm
        · rw [g4]
    case refund a =>
      obtain ⟨p, m, e, q, p', hooks, rest, ex, F⟩ := handleRefund_iff.1 h
      have S := C.sale _ _ F.presale
      obtain ⟨r, hr, _, _, hp'⟩ := updateRefunded_iff.1 F.update
      obtain ⟨_, hend, hwhy⟩ := refundQuote_phase F.quote
      have htot := S.pinv.refundTotal F.escrow F.belongs.1 hr F.quote
      have hflag : e.isRemainingQuoteWithdrawn = 0 := by
        have := F.fresh
        unfold Escrow.remainingQuoteWithdrawn at this
        obtain ⟨r', _, E⟩ := S.pinv.escBook F.escrow F.belongs.1
        have h1 := E.flag
        have h2 : e.isRemainingQuoteWithdrawn ≠ 1 := by simpa using this
        omega
      have hact : Act w a.presale p tx (.refund a) _ _ :=
        .refunded rfl F.escrow F.belongs.1 F.belongs.2 F.signed hr hflag hend hwhy
      rw [htot] at hp'
      rcases F.out with ⟨_, tk, cpi, g3, g4, _⟩ | ⟨h0, g4, _⟩
      · exact .act rfl F.presale hact (by rw [g4, hp']) (by rw [g4]) (by rw [g4])
      · exact .act rfl F.presale hact (by rw [g4, hp']) (by rw [g4]) (by rw [g4])
    case unsold a =>
      obtain ⟨p, c, hd, x, tk, cpi, F⟩ := handleUnsold_iff.1 h
      obtain ⟨_, h2, h3⟩ := progress_completed.1 F.progress
      exact .act rfl F.presale (.unsold rfl h2 h3 (unsoldPerformed_false F.first)) (by rw [F.post])
        (by rw [F.post]) (by rw [F.post])
    case closeEscrow a =>
      obtain ⟨p, e, p', F⟩ := handleCloseEscrow_iff.1 h
      obtain ⟨r, hr, _, _, hp'⟩ := decreaseEscrowCount_iff.1 F.update
      exact .act rfl F.presale (.closed rfl F.escrow F.belongs.1 F.belongs.2 F.signed hr F.checks)
        (by rw [F.post, hp']) (by rw [F.post]) (by rw [F.post])
    case creatorWithdraw a =>
      obtain ⟨p, c, hooks, rest, tk, cpi, m, ex, F⟩ := handleCreatorWithdraw_iff.1 h
      have hover : p.presaleEndTime ≤ w.clock.toNat := by
        rcases F.progress with h | h
        · exact (progress_completed.1 h).2.1
        · exact (progress_failed.1 h).2.1
      exact .act rfl F.presale (.creatorWithdrew rfl F.owner F.signed hover (creatorWithdrawn_false F.first))
        (by rw [F.post]) (by rw [F.post]) (by rw [F.post])
    case refresh a =>
      obtain ⟨p, e, e', F⟩ := (handleRefresh_iff (tx := tx)).1 h
      have S := C.sale _ _ F.presale
      obtain ⟨r, hr, E, he⟩ := refreshed_eq S.pinv F.escrow F.belongs
      rw [F.refresh] at he
      cases he
      by_cases hc : p.getPresaleProgress w.clock.toNat = .completed
      · obtain ⟨_, h2, h3⟩ := progress_completed.1 hc
        refine .act rfl F.presale (.refreshed rfl F.escrow F.belongs hr h2 h3) ?_ ?_ ?_
        · rw [F.post, upd_eq_self F.presale]
        · rw [F.post, if_pos hc]
        · rw [F.post]
      · refine .quiet ?_ ?_ ?_
        · rw [F.post]
        · rw [F.post, if_neg hc]; exact AMap.set_self F.escrow
        · rw [F.post]
    case collectFee a =>
      obtain ⟨p, m, fee, ex, F⟩ := handleCollectFee_iff.1 h
      have S := C.sale _ _ F.presale
      obtain ⟨_, h2, h3⟩ := progress_completed.1 F.progress.1
      have hfirst : p.depositFeeCollected = 0 := by
        have h1 := feeCollected_false F.progress.2
        have h2 := S.pinv.flags.f
        omega
      have hact : Act w a.presale p tx (.collectFee a) _ _ := .collected rfl F.owner.1 F.signed h2 h3 hfirst
      rcases F.out with ⟨_, hooks, rest, tk, cpi, _, _, g, _⟩ | ⟨_, g, _⟩
      · exact .act rfl F.presale hact (by rw [g]) (by rw [g]) (by rw [g])
      · exact .act rfl F.presale hact (by rw [g]) (by rw [g]) (by rw [g])

end Verif
