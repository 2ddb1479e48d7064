import Verif.Lemmas.Step
/-!
# How presales and escrows evolve
-/

namespace Verif
open Spec

theorem books_counted {p : Presale} {i : Nat} {r : Registry} (hr : p.registries[i]? = some r) :
    books (p.counted i r) = books p := by
  simp only [books, Presale.counted]
  congr 1
  exact books_set hr rfl

section act
variable {w : World} {a : Addr} {p p' : Presale} {tx : Tx} {i : Ix} {es' : AMap Addr Escrow}

/-- Only deposits and withdrawals touch the amounts entitlements depend on, and only while the sale is
open. -/
theorem Act.books_or_open (A : Act w a p tx i p' es') :
    books p' = books p ∨ (p.presaleStartTime ≤ w.clock.toNat ∧ w.clock.toNat < p.presaleEndTime) := by
  cases A with
  | opened _ _ _ _ _ hr => exact .inl (books_counted hr)
  | deposit _ _ _ _ F => exact .inr ⟨F.started, F.open_⟩
  | withdraw _ _ _ _ _ F => exact .inr ⟨F.started, F.open_⟩
  | refreshed => exact .inl rfl
  | claimed _ _ _ _ _ hr => exact .inl (books_claimed hr)
  | refunded _ _ _ _ _ hr => exact .inl (books_refunded hr)
  | closed _ _ _ _ _ hr => exact .inl (books_uncounted hr)
  | creatorWithdrew => exact .inl rfl
  | collected => exact .inl rfl
  | unsold => exact .inl rfl

theorem Act.terms_eq (A : Act w a p tx i p' es') : terms p' = terms p := by
  cases A with
  | opened _ _ _ _ _ hr => exact terms_of_books (books_counted hr)
  | deposit _ _ _ _ F => exact F.totals.2.2
  | withdraw _ _ _ _ _ F => rw [F.presale]; exact terms_debited F.registry
  | refreshed => rfl
  | claimed _ _ _ _ _ hr => exact terms_of_books (books_claimed hr)
  | refunded _ _ _ _ _ hr => exact terms_of_books (books_refunded hr)
  | closed _ _ _ _ _ hr => exact terms_of_books (books_uncounted hr)
  | creatorWithdrew => rfl
  | collected => rfl
  | unsold => rfl

/-- Dates of the schedule. -/
structure SameDates (p p' : Presale) : Prop where
  fin : p'.presaleEndTime = p.presaleEndTime
  start : p'.vestingStartTime = p.vestingStartTime
  stop : p'.vestingEndTime = p.vestingEndTime
  imm : p'.immediateReleaseTimestamp = p.immediateReleaseTimestamp

theorem SameDates.of_books {p p' : Presale} (h : books p' = books p) : SameDates p p' :=
  ⟨(congrArg Presale.presaleEndTime h :), (congrArg Presale.vestingStartTime h :),
    (congrArg Presale.vestingEndTime h :), (congrArg Presale.immediateReleaseTimestamp h :)⟩

/-- The dates stay, or a deposit fills the cap and ends the sale on the spot. -/
theorem Act.dates (A : Act w a p tx i p' es') : SameDates p p' ∨
    (∃ x, i = .deposit x ∧ x.presale = a ∧ w.clock.toNat < p.presaleEndTime ∧
      p'.presaleEndTime = w.clock.toNat ∧ p'.vestingStartTime = w.clock.toNat + p.lockDuration ∧
      p'.vestingEndTime = w.clock.toNat + p.lockDuration + p.vestDuration ∧
      p'.immediateReleaseTimestamp = w.clock.toNat + (p.immediateReleaseTimestamp - p.presaleEndTime) ∧
      p'.presaleMaximumCap ≤ p'.totalDeposit ∧ ∃ h, getPresaleModeHandler p = .ok h ∧ h.endsEarly = true) := by
  cases A with
  | opened _ _ _ _ _ hr => exact .inl (.of_books (books_counted hr))
  | deposit hx _ _ _ F =>
    rcases F.result with ⟨h1, h2, h3⟩ | ⟨h1, _⟩
    · right
      refine ⟨_, rfl, hx, F.open_, ?_, ?_, ?_, ?_, ?_, _, F.handler, h2⟩
      all_goals rw [h1]
      · rfl
      · rfl
      · rfl
      · rfl
      · exact h3
    · left; rw [h1]; exact ⟨rfl, rfl, rfl, rfl⟩
  | withdraw _ _ _ _ _ F => left; rw [F.presale]; exact ⟨rfl, rfl, rfl, rfl⟩
  | refreshed => exact .inl (.of_books rfl)
  | claimed _ _ _ _ _ hr => exact .inl (.of_books (books_claimed hr))
  | refunded _ _ _ _ _ hr => exact .inl (.of_books (books_refunded hr))
  | closed _ _ _ _ _ hr => exact .inl (.of_books (books_uncounted hr))
  | creatorWithdrew => exact .inl (.of_books rfl)
  | collected => exact .inl (.of_books rfl)
  | unsold => exact .inl (.of_books rfl)

/-- One-time flags are never taken back and counters of payments never shrink. -/
structure Grows (p p' : Presale) : Prop where
  w : p.hasCreatorWithdrawn = 1 → p'.hasCreatorWithdrawn = 1
  f : p.depositFeeCollected = 1 → p'.depositFeeCollected = 1
  u : p.isUnsoldTokenActionPerformed = 1 → p'.isUnsoldTokenActionPerformed = 1
  claimed : p.totalClaimedToken ≤ p'.totalClaimedToken
  refunded : p.totalRefundedQuoteToken ≤ p'.totalRefundedQuoteToken

theorem Grows.refl (p : Presale) : Grows p p := ⟨id, id, id, Nat.le_refl _, Nat.le_refl _⟩

theorem Grows.trans {p p' p'' : Presale} (h : Grows p p') (h' : Grows p' p'') : Grows p p'' :=
  ⟨h'.w ∘ h.w, h'.f ∘ h.f, h'.u ∘ h.u, Nat.le_trans h.claimed h'.claimed, Nat.le_trans h.refunded h'.refunded⟩

theorem Act.grows (A : Act w a p tx i p' es') : Grows p p' := by
  cases A with
  | opened => exact ⟨id, id, id, Nat.le_refl _, Nat.le_refl _⟩
  | deposit _ _ _ _ F =>
    rcases F.result with ⟨h1, _⟩ | ⟨h1, _⟩ <;> rw [h1] <;>
      exact ⟨id, id, id, Nat.le_refl _, Nat.le_refl _⟩
  | withdraw _ _ _ _ _ F => rw [F.presale]; exact ⟨id, id, id, Nat.le_refl _, Nat.le_refl _⟩
  | refreshed => exact .refl p
  | claimed => exact ⟨id, id, id, Nat.le_add_right _ _, Nat.le_refl _⟩
  | refunded => exact ⟨id, id, id, Nat.le_refl _, Nat.le_add_right _ _⟩
  | closed => exact ⟨id, id, id, Nat.le_refl _, Nat.le_refl _⟩
  | creatorWithdrew => exact ⟨fun _ => rfl, id, id, Nat.le_refl _, Nat.le_refl _⟩
  | collected => exact ⟨id, fun _ => rfl, id, Nat.le_refl _, Nat.le_refl _⟩
  | unsold => exact ⟨id, id, fun _ => rfl, Nat.le_refl _, Nat.le_refl _⟩

end act

/-! ## Presales over time -/

/-- A presale `p` at time `now` and the same one, `p'`, at a later time `now'`. -/
structure Later (now now' : Int) (p p' : Presale) : Prop where
  clock : now ≤ now'
  terms : terms p' = terms p
  shifted : Shifted p p'
  frozen : Over p now → books p' = books p
  /-- the end moves only when the cap is filled, to the time that happens -/
  early : SameDates p p' ∨ (now < p.presaleEndTime ∧ now ≤ p'.presaleEndTime ∧
    (p'.presaleEndTime : Int) ≤ now' ∧ p'.presaleEndTime < p.presaleEndTime ∧
    p'.presaleMaximumCap ≤ p'.totalDeposit ∧ ∃ h, getPresaleModeHandler p = .ok h ∧ h.endsEarly = true)
  grows : Grows p p'

theorem Later.refl (now : Int) (p : Presale) : Later now now p p :=
  ⟨Int.le_refl _, rfl, .refl p, fun _ => rfl, .inl ⟨rfl, rfl, rfl, rfl⟩, .refl p⟩

theorem Later.over {t t' : Int} {p p' : Presale} (L : Later t t' p p') (h : Over p t) : Over p' t' := by
  have h1 := L.shifted.earlier
  have h2 := L.clock
  unfold Over at *
  omega

theorem handler_of_terms {p p' : Presale} (h : terms p' = terms p) :
    getPresaleModeHandler p' = getPresaleModeHandler p := by
  have e1 : p'.presaleMode = p.presaleMode := (congrArg Presale.presaleMode h :)
  have e2 : p'.raw0 = p.raw0 := (congrArg Presale.raw0 h :)
  have e3 : p'.raw1 = p.raw1 := (congrArg Presale.raw1 h :)
  unfold getPresaleModeHandler
  rw [e1, e2, e3]

theorem Later.trans {t t' t'' : Int} {p p' p'' : Presale} (L : Later t t' p p') (L' : Later t' t'' p' p'') :
    Later t t'' p p'' := by
  have e1 : p''.lockDuration = p'.lockDuration := (congrArg Presale.lockDuration L'.terms :)
  have e2 : p''.vestDuration = p'.vestDuration := (congrArg Presale.vestDuration L'.terms :)
  have hc := L.clock
  have hc' := L'.clock
  refine ⟨by omega, L'.terms.trans L.terms, L.shifted.trans L'.shifted e1 e2, ?_, ?_, L.grows.trans L'.grows⟩
  · intro h
    exact (L'.frozen (L.over h)).trans (L.frozen h)
  · rcases L.early with h1 | ⟨a1, a2, a3, a4, a5, a6⟩
    · rcases L'.early with h2 | ⟨b1, b2, b3, b4, b5, h, b6, b7⟩
      · exact .inl ⟨h2.fin.trans h1.fin, h2.start.trans h1.start, h2.stop.trans h1.stop, h2.imm.trans h1.imm⟩
      · right
        have := h1.fin
        exact ⟨by omega, by omega, by omega, by omega, b5, h, by rw [← handler_of_terms L.terms]; exact b6, b7⟩
    · right
      have hb := L'.frozen a3
      have c1 : p''.presaleEndTime = p'.presaleEndTime := (congrArg Presale.presaleEndTime hb :)
      have c2 : p''.presaleMaximumCap = p'.presaleMaximumCap := (congrArg Presale.presaleMaximumCap hb :)
      have c3 : p''.totalDeposit = p'.totalDeposit := (congrArg Presale.totalDeposit hb :)
      rw [c1, c2, c3]
      exact ⟨a1, a2, by omega, a4, a5, a6⟩

theorem Act.later {w : World} {a : Addr} {p p' : Presale} {tx : Tx} {i : Ix} {es' : AMap Addr Escrow}
    (A : Act w a p tx i p' es') (h0 : 0 ≤ w.clock) : Later w.clock w.clock p p' := by
  have ht := A.terms_eq
  refine ⟨Int.le_refl _, ht, ?_, ?_, ?_, A.grows⟩
  · rcases A.dates with h | ⟨x, _, _, h1, h2, h3, h4, h5, _⟩
    · exact Shifted.same h.fin h.start h.stop h.imm
    · have e1 : p'.lockDuration = p.lockDuration := (congrArg Presale.lockDuration ht :)
      have e2 : p'.vestDuration = p.vestDuration := (congrArg Presale.vestDuration ht :)
      exact ⟨by omega, .inr ⟨by omega, by omega, by rw [h5, h2]⟩⟩
  · intro h
    rcases A.books_or_open with h1 | h1
    · exact h1
    · unfold Over at h; omega
  · rcases A.dates with h | ⟨x, _, _, h1, h2, h3, h4, h5, h6, h7⟩
    · exact .inl h
    · exact .inr ⟨by omega, by omega, by omega, by omega, h6, h7⟩

theorem Effect.clock_le {w w' : World} {op : Op} (E : Effect w op w') : w.clock ≤ w'.clock := by
  cases E with
  | quiet _ _ h => exact h
  | create _ _ _ _ _ h => exact Int.le_of_eq h.symm
  | act _ _ _ _ _ h => exact Int.le_of_eq h.symm

/-- Presales across one step. -/
theorem Effect.later {w w' : World} {op : Op} (W : WInv w) (E : Effect w op w') {a : Addr} {p : Presale}
    (hp : w.presales a = some p) : ∃ p', w'.presales a = some p' ∧ Later w.clock w'.clock p p' := by
  cases E with
  | quiet h1 _ h3 =>
    exact ⟨p, by rw [h1]; exact hp,
      ⟨h3, rfl, .refl p, fun _ => rfl, .inl ⟨rfl, rfl, rfl, rfl⟩, .refl p⟩⟩
  | @create tx x q h1 h2 h3 h4 h5 h6 =>
    have hne : a ≠ x.presaleKey := by rintro rfl; rw [hp] at h2; cases h2
    exact ⟨p, by rw [h4, upd_other _ _ hne]; exact hp, by rw [h6]; exact .refl _ _⟩
  | @act tx i b q q' es' h1 h2 h3 h4 h5 h6 =>
    by_cases hb : a = b
    · subst hb
      rw [hp] at h2; cases h2
      exact ⟨q', by rw [h4, upd_self], by rw [h6]; exact h3.later (W.core.sale _ _ hp).clock⟩
    · exact ⟨p, by rw [h4, upd_other _ _ hb]; exact hp, by rw [h6]; exact .refl _ _⟩

/-- Presales across a history. -/
theorem run_later {w : World} (W : WInv w) (ops : List Op) {a : Addr} {p : Presale}
    (hp : w.presales a = some p) :
    ∃ p', (run w ops).presales a = some p' ∧ Later w.clock (run w ops).clock p p' := by
  have key := run_rel (R := fun w w' => ∀ p, w.presales a = some p →
      ∃ p', w'.presales a = some p' ∧ Later w.clock w'.clock p p')
    (fun w p hp => ⟨p, hp, .refl _ _⟩)
    (fun w1 w2 w3 h1 h2 p hp => by
      obtain ⟨p', hp', L⟩ := h1 p hp
      obtain ⟨p'', hp'', L'⟩ := h2 p' hp'
      exact ⟨p'', hp'', L.trans L'⟩)
    (fun _ _ _ _ W h _ hp => (step_effect W h).later W hp) W ops
  exact key p hp

theorem run_clock {w : World} (W : WInv w) (ops : List Op) : w.clock ≤ (run w ops).clock :=
  run_rel (R := fun w w' => w.clock ≤ w'.clock) (fun _ => Int.le_refl _) (fun _ _ _ => Int.le_trans)
    (fun _ _ _ _ W h => (step_effect W h).clock_le) W ops

/-! ## Escrows -/

/-- Escrow `e` of presale `p`, stored at `k`, across a successful instruction `i` naming it. -/
inductive EChange (w : World) (p : Presale) (k : Addr) (e : Escrow) (tx : Tx) : Ix → Option Escrow → Prop
  | deposit {x : DepositAcc} {d : DepositResult} {h : Handler} {quota : Nat} {r : Registry}
      (here : x.presale = e.presale) (key : x.escrow = k) (signed : tx.signed x.payer = true)
      (facts : DepositCoreFacts p e w.clock.toNat x.maxAmount d h quota r) :
      EChange w p k e tx (.deposit x) (some d.escrow)
  | withdraw {x : WithdrawAcc} {p' : Presale} {e' : Escrow} {n : Nat} {h : Handler}
      {r : Registry} (here : x.presale = e.presale) (key : x.escrow = k) (signed : tx.signed e.owner = true)
      (facts : WithdrawCoreFacts p e w.clock.toNat x.maxAmount p' e' n h r) :
      EChange w p k e tx (.withdraw x) (some e')
  | refreshed {x : RefreshAcc} {r : Registry} (here : x.presale = e.presale) (key : x.escrow = k)
      (registry : p.registries[e.registryIndex]? = some r)
      (over : p.presaleEndTime ≤ w.clock.toNat) (reached : p.presaleMinimumCap ≤ p.totalDeposit) :
      EChange w p k e tx (.refresh x) (some (e.accrued (claimableAt p r e w.clock.toNat) w.clock.toNat))
  | claimed {x : ClaimAcc} {r : Registry} (here : x.presale = e.presale) (key : x.escrow = k)
      (signed : tx.signed e.owner = true) (registry : p.registries[e.registryIndex]? = some r)
      (over : p.presaleEndTime ≤ w.clock.toNat) (reached : p.presaleMinimumCap ≤ p.totalDeposit) :
      EChange w p k e tx (.claim x) (some (e.accrued (claimableAt p r e w.clock.toNat) w.clock.toNat).paid)
  | refunded {x : RefundAcc} {r : Registry} (here : x.presale = e.presale) (key : x.escrow = k)
      (signed : tx.signed e.owner = true) (registry : p.registries[e.registryIndex]? = some r)
      (fresh : e.isRemainingQuoteWithdrawn = 0) (over : p.presaleEndTime ≤ w.clock.toNat)
      (why : p.totalDeposit < p.presaleMinimumCap ∨ (p.presaleMinimumCap ≤ p.totalDeposit ∧ p.presaleMode = 1)) :
      EChange w p k e tx (.refund x) (some e.updateRemainingQuoteWithdrawn)
  | closed {x : CloseEscrowAcc} {r : Registry} (here : x.presale = e.presale) (key : x.escrow = k)
      (signed : tx.signed e.owner = true) (registry : p.registries[e.registryIndex]? = some r)
      (checks : closeChecks p e w.clock.toNat = .ok ()) :
      EChange w p k e tx (.closeEscrow x) none

theorem Act.escrow {w : World} {a : Addr} {p p' : Presale} {tx : Tx} {i : Ix} {es' : AMap Addr Escrow}
    (A : Act w a p tx i p' es') (hn : (AMap.keys w.escrows).Nodup) {k : Addr} {e : Escrow}
    (hk : w.escrows.get? k = some e) :
    es'.get? k = some e ∨ (e.presale = a ∧ EChange w p k e tx i (es'.get? k)) := by
  cases A with
  | opened _ hf =>
    left
    rw [AMap.get?_set, if_neg]
    · exact hk
    · rintro rfl; rw [hf] at hk; cases hk
  | deposit hx he hb hs F =>
    rw [AMap.get?_set]
    split
    · next h =>
      subst h
      rw [hk] at he; cases he
      exact .inr ⟨hb, .deposit (hx.trans hb.symm) rfl hs F⟩
    · exact .inl hk
  | withdraw hx he hb ho hs F =>
    rw [AMap.get?_set]
    split
    · next h =>
      subst h
      rw [hk] at he; cases he
      exact .inr ⟨hb, .withdraw (hx.trans hb.symm) rfl (by rw [ho]; exact hs) F⟩
    · exact .inl hk
  | refreshed hx he hb hr h1 h2 =>
    rw [AMap.get?_set]
    split
    · next h =>
      subst h
      rw [hk] at he; cases he
      exact .inr ⟨hb, .refreshed (hx.trans hb.symm) rfl hr h1 h2⟩
    · exact .inl hk
  | claimed hx he hb ho hs hr h1 h2 =>
    rw [AMap.get?_set]
    split
    · next h =>
      subst h
      rw [hk] at he; cases he
      exact .inr ⟨hb, .claimed (hx.trans hb.symm) rfl (by rw [ho]; exact hs) hr h1 h2⟩
    · exact .inl hk
  | refunded hx he hb ho hs hr hf h1 h2 =>
    rw [AMap.get?_set]
    split
    · next h =>
      subst h
      rw [hk] at he; cases he
      exact .inr ⟨hb, .refunded (hx.trans hb.symm) rfl (by rw [ho]; exact hs) hr hf h1 h2⟩
    · exact .inl hk
  | closed hx he hb ho hs hr hc =>
    rw [AMap.get?_erase hn]
    split
    · next h =>
      subst h
      rw [hk] at he; cases he
      exact .inr ⟨hb, .closed (hx.trans hb.symm) rfl (by rw [ho]; exact hs) hr hc⟩
    · exact .inl hk
  | creatorWithdrew => exact .inl hk
  | collected => exact .inl hk
  | unsold => exact .inl hk

/-- An escrow across one step: untouched, or changed by an instruction naming it. -/
theorem Effect.escrow {w w' : World} {op : Op} (W : WInv w) (E : Effect w op w') {k : Addr} {e : Escrow}
    (hk : w.escrows.get? k = some e) :
    w'.escrows.get? k = some e ∨
    ∃ tx i p, op = .ix tx i ∧ w.presales e.presale = some p ∧ w'.clock = w.clock ∧
      EChange w p k e tx i (w'.escrows.get? k) := by
  cases E with
  | quiet _ h _ => rw [h]; exact .inl hk
  | create _ _ _ _ h _ => rw [h]; exact .inl hk
  | @act tx i b q q' es' h1 h2 h3 h4 h5 h6 =>
    rw [h5]
    rcases h3.escrow W.core.nodup hk with h | ⟨h, h'⟩
    · exact .inl h
    · subst h
      exact .inr ⟨tx, i, q, h1, h2, h6, h'⟩

/-- An escrow that appears was opened by this very step. -/
theorem Act.escrow_new {w : World} {a : Addr} {p p' : Presale} {tx : Tx} {i : Ix} {es' : AMap Addr Escrow}
    (A : Act w a p tx i p' es') (hn : (AMap.keys w.escrows).Nodup) {k : Addr} {e : Escrow}
    (hk : w.escrows.get? k = none) (hk' : es'.get? k = some e) :
    i.opens a ∧ p.presaleStartTime ≤ w.clock.toNat ∧ w.clock.toNat < p.presaleEndTime ∧
    ∃ owner idx cap r, p.registries[idx]? = some r ∧ idx < p.totalPresaleRegistryCount ∧
      cap ≤ r.buyerMaximumDepositCap ∧ k = .escrow a owner idx ∧
      e = Escrow.initialized a owner w.clock.toNat idx cap := by
  have key : ∀ {x : Addr} {e0 e1 : Escrow}, w.escrows.get? x = some e0 →
      (w.escrows.set x e1).get? k = some e → False := by
    intro x e0 e1 h0 h1
    rw [AMap.get?_set] at h1
    split at h1
    · next h => subst h; rw [hk] at h0; cases h0
    · rw [hk] at h1; cases h1
  cases A with
  | @opened _ owner idx cap r hi hf h1 h2 h3 h4 h5 _ =>
    rw [AMap.get?_set] at hk'
    split at hk'
    · next h =>
      cases hk'
      exact ⟨hi, h1, h2, owner, idx, cap, r, h4, h3, h5, h, rfl⟩
    · rw [hk] at hk'; cases hk'
  | deposit _ he => exact (key he hk').elim
  | withdraw _ he => exact (key he hk').elim
  | refreshed _ he => exact (key he hk').elim
  | claimed _ he => exact (key he hk').elim
  | refunded _ he => exact (key he hk').elim
  | closed _ he =>
    rw [AMap.get?_erase hn] at hk'
    split at hk'
    · cases hk'
    · rw [hk] at hk'; cases hk'
  | creatorWithdrew => rw [hk] at hk'; cases hk'
  | collected => rw [hk] at hk'; cases hk'
  | unsold => rw [hk] at hk'; cases hk'

/-- What never changes in an open escrow. -/
structure SameIdentity (e e' : Escrow) : Prop where
  presale : e'.presale = e.presale
  owner : e'.owner = e.owner
  index : e'.registryIndex = e.registryIndex
  cap : e'.depositMaxCap = e.depositMaxCap
  created : e'.createdAt = e.createdAt

theorem EChange.identity {w : World} {p : Presale} {k : Addr} {e : Escrow} {tx : Tx} {i : Ix} {o : Option Escrow}
    (h : EChange w p k e tx i o) : ∀ e', o = some e' → SameIdentity e e' := by
  cases h with
  | deposit _ _ _ F => intro e' h; cases h; rw [F.escrow]; exact ⟨rfl, rfl, rfl, rfl, rfl⟩
  | withdraw _ _ _ F => intro e' h; cases h; rw [F.escrow]; exact ⟨rfl, rfl, rfl, rfl, rfl⟩
  | refreshed => intro e' h; cases h; exact ⟨rfl, rfl, rfl, rfl, rfl⟩
  | claimed => intro e' h; cases h; exact ⟨rfl, rfl, rfl, rfl, rfl⟩
  | refunded => intro e' h; cases h; exact ⟨rfl, rfl, rfl, rfl, rfl⟩
  | closed => intro e' h; cases h

end Verif
