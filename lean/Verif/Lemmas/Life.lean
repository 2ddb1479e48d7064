import Verif.SpecLife
import Verif.Lemmas.Tally
import Verif.Props.Refunds
/-!
# Refunds of one escrow over a history
-/

namespace Verif
open Spec

theorem owedRefund_le_paid {p : Presale} {r : Registry} {e : Escrow} :
    owedRefund p r e ≤ e.totalDeposit + e.totalDepositFee := by
  have h1 := @registrySurplus_le p r
  have h2 := @registryFeeRefund_le p r
  unfold owedRefund refundDeposit refundFee
  split
  · exact Nat.le_refl _
  · split
    · exact Nat.add_le_add (mul_div_le_of_le h1) (mul_div_le_of_le h2)
    · exact Nat.zero_le _

/-- The refunds of the escrow at `k` agree with its flag; a missing escrow has nothing in it or was served. -/
def Living (w : World) (k : Addr) (l : List StepRec) : Prop :=
  (∀ e, w.escrows.get? k = some e → ∃ p r, w.presales e.presale = some p ∧
    p.registries[e.registryIndex]? = some r ∧
    total .refund (ofEscrow k) l = if e.isRemainingQuoteWithdrawn = 1 then owedRefund p r e else 0) ∧
  (w.escrows.get? k = none →
    (gotBack k l = paidIn k l ∧ total .refund (ofEscrow k) l = 0 ∧ gotTokens k l = 0) ∨
    ∃ e p r, k = .escrow e.presale e.owner e.registryIndex ∧ w.presales e.presale = some p ∧ Over p w.clock ∧
      p.registries[e.registryIndex]? = some r ∧ ServedOut p r e k l)

/-- Only a refund of this escrow moves its flag. -/
theorem EChange.flag_same {w : World} {p : Presale} {k : Addr} {e : Escrow} {tx : Tx} {i : Ix} {o : Option Escrow}
    (h : EChange w p k e tx i o) (hn : ∀ x, i ≠ .refund x) :
    ∀ e', o = some e' → e'.isRemainingQuoteWithdrawn = e.isRemainingQuoteWithdrawn := by
  cases h with
  | deposit _ _ _ F => intro e' h; cases h; rw [F.escrow]; rfl
  | withdraw _ _ _ F => intro e' h; cases h; rw [F.escrow]; rfl
  | refreshed => intro e' h; cases h; rfl
  | claimed => intro e' h; cases h; rfl
  | refunded => exact absurd rfl (hn _)
  | closed => intro e' h; cases h

theorem served_later {p p' : Presale} {r r' : Registry} {e : Escrow} {k : Addr} {l l' : List StepRec}
    (hb : books p' = books p) (hr : registryBooks r' = registryBooks r)
    (hl : ∀ K, total K (ofEscrow k) l' = total K (ofEscrow k) l) (S : ServedOut p r e k l) :
    ServedOut p' r' e k l' := by
  have h1 : p'.totalDeposit = p.totalDeposit := (congrArg Presale.totalDeposit hb :)
  have h2 : p'.presaleMinimumCap = p.presaleMinimumCap := (congrArg Presale.presaleMinimumCap hb :)
  have s1 := S.kept; have s2 := S.refund; have s3 := S.tokens
  unfold paidIn at s1
  unfold gotTokens at s3
  refine ⟨?_, ?_, ?_⟩
  · unfold paidIn; rw [hl, hl]; exact s1
  · rw [hl, owedRefund_congr hb hr rfl rfl]; exact s2
  · unfold gotTokens; rw [hl, h1, h2, entitlement_congr hb hr rfl]; exact s3

/-- An escrow that stays and is not refunded has the same refunds on record. -/
theorem refund_still {w w' : World} (W : WInv w) (W' : WInv w') {op : Op} {rc : Receipt}
    (h : step w op = .ok (w', rc)) {k : Addr} {l l' : List StepRec}
    (hl : total .refund (ofEscrow k) l' = total .refund (ofEscrow k) l)
    (hn : w.escrows.get? k = w'.escrows.get? k ∨ ∀ tx x, op ≠ .ix tx (.refund x)) {e e' : Escrow}
    (hk : w.escrows.get? k = some e) (hk' : w'.escrows.get? k = some e')
    (I : ∃ p r, w.presales e.presale = some p ∧ p.registries[e.registryIndex]? = some r ∧
      total .refund (ofEscrow k) l = if e.isRemainingQuoteWithdrawn = 1 then owedRefund p r e else 0) :
    ∃ p r, w'.presales e'.presale = some p ∧ p.registries[e'.registryIndex]? = some r ∧
      total .refund (ofEscrow k) l' = if e'.isRemainingQuoteWithdrawn = 1 then owedRefund p r e' else 0 := by
  obtain ⟨p, r, hp, hr, hR⟩ := I
  have S := W.core.sale _ _ hp
  obtain ⟨r0, hr0, E⟩ := S.pinv.escBook hk rfl
  rw [hr] at hr0; cases hr0
  have hpres : e'.presale = e.presale := by
    have h1 : k = .escrow e.presale e.owner e.registryIndex := (W.core.esc (k, e) (AMap.get?_mem hk)).1
    have h2 : k = .escrow e'.presale e'.owner e'.registryIndex := (W'.core.esc (k, e') (AMap.get?_mem hk')).1
    rw [h1] at h2
    injection h2 with h5
    exact h5.symm
  obtain ⟨p', g1, L⟩ := (step_effect W h).later W hp
  obtain ⟨r', hr', _⟩ := (W'.core.sale _ _ g1).pinv.escBook hk' hpres
  refine ⟨p', r', by rw [hpres]; exact g1, hr', ?_⟩
  have hflag : e'.isRemainingQuoteWithdrawn = e.isRemainingQuoteWithdrawn := by
    rcases hn with h1 | h1
    · rw [hk, hk'] at h1; cases h1; rfl
    · rcases (step_effect W h).escrow W hk with h2 | ⟨tx, i, q, rfl, _, _, C⟩
      · rw [hk'] at h2; cases h2; rfl
      · exact C.flag_same (fun x hx => h1 tx x (by rw [hx])) e' hk'
  rw [hl, hR, hflag]
  by_cases hf : e.isRemainingQuoteWithdrawn = 1
  · rw [if_pos hf, if_pos hf]
    have ho : Over p w.clock := by
      refine S.over.2 (Classical.byContradiction fun hlt => ?_)
      have := E.flag0 (by omega)
      omega
    obtain ⟨e0, he0, A⟩ := step_after W h hp ho hk' hpres
    rw [hk] at he0; cases he0
    obtain ⟨r2, hr2, hrb⟩ := books_reg (L.frozen ho) hr
    rw [A.identity.index, hr2] at hr'; cases hr'
    exact (owedRefund_congr (L.frozen ho) hrb A.deposit A.fee).symm
  · rw [if_neg hf, if_neg hf]

theorem living_other {w w' : World} (W : WInv w) (W' : WInv w') {op : Op} {rc : Receipt}
    (h : step w op = .ok (w', rc)) {k : Addr} {l l' : List StepRec}
    (hl : ∀ K, total K (ofEscrow k) l' = total K (ofEscrow k) l) (T : EscTally w k l)
    (hn : w.escrows.get? k = w'.escrows.get? k ∨ ∀ tx x, op ≠ .ix tx (.refund x))
    (hd : w'.escrows.get? k = none → ∀ e, w.escrows.get? k = some e →
      ∃ p r, w.presales e.presale = some p ∧ p.registries[e.registryIndex]? = some r ∧
        closeChecks p e w.clock.toNat = .ok ())
    (I : Living w k l) : Living w' k l' := by
  obtain ⟨I1, I2⟩ := I
  have hserved : (∃ e p r, k = .escrow e.presale e.owner e.registryIndex ∧ w.presales e.presale = some p ∧
      Over p w.clock ∧ p.registries[e.registryIndex]? = some r ∧ ServedOut p r e k l) →
      ∃ e p r, k = .escrow e.presale e.owner e.registryIndex ∧ w'.presales e.presale = some p ∧
      Over p w'.clock ∧ p.registries[e.registryIndex]? = some r ∧ ServedOut p r e k l' := by
    rintro ⟨e, p, r, h1, h2, h3, h4, h5⟩
    obtain ⟨p', g1, L⟩ := (step_effect W h).later W h2
    obtain ⟨r', hr', hrb⟩ := books_reg (L.frozen h3) h4
    exact ⟨e, p', r', h1, g1, L.over h3, hr', served_later (L.frozen h3) hrb hl h5⟩
  cases hk : w.escrows.get? k with
  | none =>
    refine ⟨?_, fun _ => ?_⟩
    · intro e he
      obtain ⟨tx, i, p, _, hp, hon, h0, hkey, hini, _⟩ := step_opening W h hk he
      obtain ⟨p', g1, L⟩ := (step_effect W h).later W hp
      obtain ⟨r', hr', _⟩ := (W'.core.sale _ _ g1).pinv.escBook he rfl
      refine ⟨p', r', g1, hr', ?_⟩
      have hf : e.isRemainingQuoteWithdrawn = 0 := by rw [hini]; rfl
      rw [hl, hf, if_neg (by decide)]
      rcases I2 hk with ⟨_, h2, _⟩ | ⟨e0, q, r0, h1, h2, h3, _⟩
      · exact h2
      · rw [hkey] at h1
        injection h1 with q1
        rw [← q1, hp] at h2; cases h2
        unfold Ongoing at hon
        unfold Over at h3
        omega
    · rcases I2 hk with h1 | h1
      · left
        unfold gotBack paidIn gotTokens at h1 ⊢
        simp only [hl]
        exact h1
      · exact .inr (hserved h1)
  | some e =>
    obtain ⟨p, r, hp, hr, hR⟩ := I1 e hk
    obtain ⟨t1, t2⟩ := T.1 e hk
    have S := W.core.sale _ _ hp
    obtain ⟨r0, hr0, E⟩ := S.pinv.escBook hk rfl
    rw [hr] at hr0; cases hr0
    cases hk' : w'.escrows.get? k with
    | some e' =>
      refine ⟨fun e2 he2 => ?_, fun h => by rw [hk'] at h; cases h⟩
      exact refund_still W W' h (hl .refund) hn hk he2 (I1 e hk)
    | none =>
      refine ⟨fun e2 he2 => (by rw [hk'] at he2; cases he2), fun _ => ?_⟩
      obtain ⟨p0, r0, hp0, hr0, hc⟩ := hd hk' e hk
      rw [hp] at hp0; cases hp0
      rw [hr] at hr0; cases hr0
      have hset := (S.pinv.closeChecks_iff hk rfl hr).1 hc
      unfold Settled at hset
      by_cases ht : w.clock.toNat < p.presaleEndTime
      · rw [if_pos ht] at hset
        left
        have c0 := E.claim0 (.inl ht)
        have f0 := E.flag0 ht
        rw [f0, if_neg (by decide)] at hR
        unfold gotBack paidIn gotTokens
        simp only [hl]
        omega
      · rw [if_neg ht] at hset
        have hkey := (W.core.esc _ (AMap.get?_mem hk)).1
        right
        refine hserved ⟨e, p, r, hkey, hp, S.over.2 (by omega), hr, t1, ?_, ?_⟩
        · rw [hR]
          split
          · rfl
          · next hf =>
            have := hset.1
            unfold outstanding at this
            rw [if_neg hf] at this
            exact this.symm
        · unfold gotTokens
          rw [← t2]
          split
          · next hm => exact (E.claim0 (.inr hm)).1
          · next hm => exact hset.2 (by omega)

theorem living {w0 : World} (G : Genesis w0) (ops : List Op) (k : Addr) :
    Living (run w0 ops) k (trace w0 ops) := by
  induction ops using List.reverseRecOn with
  | nil =>
    rw [show run w0 [] = w0 from rfl]
    unfold Living
    rw [G.escrows]
    exact ⟨fun e he => (by simp [AMap.get?] at he), fun _ => .inl ⟨rfl, rfl, rfl⟩⟩
  | append_singleton ops op ih =>
    have R : Reachable (run w0 ops) := ⟨w0, ops, G, rfl⟩
    have W := R.winv
    have T := escrow_tally G ops k
    rw [trace_snoc, run_snoc]
    unfold attempt
    cases h : step (run w0 ops) op with
    | error e =>
      have : apply (run w0 ops) op = run w0 ops := by unfold apply; rw [h]
      rw [this, List.append_nil]
      exact ih
    | ok x =>
      obtain ⟨w', rc⟩ := x
      rw [apply_ok h]
      have W' := (R.step h).winv
      have hclosed : about op ≠ none → w'.escrows.get? k = none → ∀ e, (run w0 ops).escrows.get? k = some e →
          False := by
        intro hab hnone e he
        cases hk : about op with
        | none => exact hab hk
        | some y =>
          obtain ⟨K, b, k'⟩ := y
          obtain ⟨p, p', e1, e', r, r', D⟩ := step_trade W h hk
          rw [D.escrows', AMap.get?_set] at hnone
          split at hnone
          · cases hnone
          · rw [he] at hnone; cases hnone
      cases hk : about op with
      | none =>
        refine living_other W W' h (fun K => ?_) T (.inr ?_) (fun hnone e he => ?_) ih
        · simp only [total_append, total_one, part_none (s := ⟨run w0 ops, op, rc, w'⟩) hk, Nat.add_zero]
        · rintro tx x rfl
          simp [about] at hk
        · rcases (step_effect W h).escrow W he with h1 | ⟨tx, i, p, rfl, hp, _, C⟩
          · rw [hnone] at h1; cases h1
          · rw [hnone] at C
            cases C with
            | closed _ _ _ hr hc => exact ⟨p, _, hp, hr, hc⟩
      | some y =>
        obtain ⟨K, b, k'⟩ := y
        have hab : about op ≠ none := by rw [hk]; exact fun h => nomatch h
        obtain ⟨p, p', e, e', r, r', D⟩ := step_trade W h hk
        by_cases hkk : k' = k
        · subst hkk
          by_cases hK : K = .refund
          · subst hK
            have hx : ∃ tx x, op = .ix tx (.refund x) ∧ x.presale = b ∧ x.escrow = k' := by
              cases op with
              | ix tx i =>
                cases i <;> simp only [about, Option.some.injEq, Prod.mk.injEq, reduceCtorEq, false_and] at hk
                exact ⟨tx, _, rfl, hk.2⟩
              | _ => simp [about] at hk
            obtain ⟨tx, x, rfl, rfl, rfl⟩ := hx
            obtain ⟨q, q', f, f', s, s', n, F⟩ := refund_spec R h
            have hqp := F.presale; rw [D.presale] at hqp; cases hqp
            have hfe := F.escrow; rw [D.escrow] at hfe; cases hfe
            have hv : volume .refund ⟨run w0 ops, .ix tx (.refund x), rc, w'⟩ = owedRefund p s e := by
              have h1 := D.ref
              have h2 : p'.totalRefundedQuoteToken = p.totalRefundedQuoteToken + n := by
                have h3 := F.presale'
                rw [D.presales', upd_self] at h3
                cases h3
                rw [F.presaleNow]
              rw [F.amount] at h2
              unfold amt at h1
              rw [if_pos rfl] at h1
              omega
            obtain ⟨p0, r0, hp0, hr0, hR⟩ := ih.1 e D.escrow
            rw [D.belongs, D.presale] at hp0; cases hp0
            rw [F.registry] at hr0; cases hr0
            rw [F.first, if_neg (by decide)] at hR
            have hpres : f'.presale = x.presale := by rw [F.escrowNow]; exact D.belongs
            have hind : f'.registryIndex = e.registryIndex := by rw [F.escrowNow]
            refine ⟨fun e2 he2 => ?_, fun hnone => by rw [F.escrow'] at hnone; cases hnone⟩
            rw [F.escrow'] at he2; cases he2
            refine ⟨q', s', by rw [hpres]; exact F.presale', by rw [hind]; exact F.registry', ?_⟩
            have hb : books q' = books p := by
              rw [F.presaleNow, F.registryNow]
              exact books_refunded F.registry
            have hrb : registryBooks s' = registryBooks s := by rw [F.registryNow]; rfl
            have hp1 : part .refund (ofEscrow x.escrow) ⟨run w0 ops, .ix tx (.refund x), rc, w'⟩ = owedRefund p s e := by
              rw [part_some hk, if_pos (by simp [ofEscrow])]
              unfold amt
              rw [if_pos rfl, hv]
            rw [total_append, total_one, hp1, hR, if_pos (by rw [F.escrowNow]), Nat.zero_add]
            exact (owedRefund_congr hb hrb (by rw [F.escrowNow]) (by rw [F.escrowNow])).symm
          · have hpart : part .refund (ofEscrow k') ⟨run w0 ops, op, rc, w'⟩ = 0 := by
              rw [part_some hk, if_pos (by simp [ofEscrow])]
              unfold amt
              rw [if_neg hK]
            have g : w'.escrows.get? k' = some e' := by
              rw [D.escrows']; exact (AMap.get?_set _ _ _ _).trans (if_pos rfl)
            refine ⟨fun e2 he2 => ?_, fun hnone => by rw [g] at hnone; cases hnone⟩
            refine refund_still W W' h ?_ (.inr ?_) D.escrow he2 (ih.1 e D.escrow)
            · rw [total_append, total_one, hpart, Nat.add_zero]
            · rintro tx x rfl
              simp only [about, Option.some.injEq, Prod.mk.injEq] at hk
              exact hK hk.1.symm
        · have hother : w'.escrows.get? k = (run w0 ops).escrows.get? k := by
            rw [D.escrows']
            exact (AMap.get?_set _ _ _ _).trans (if_neg (fun h => hkk h.symm))
          refine living_other W W' h (fun K' => ?_) T (.inl hother.symm)
            (fun hnone e he => absurd (hclosed hab hnone e he) id) ih
          have hp : part K' (ofEscrow k) ⟨run w0 ops, op, rc, w'⟩ = 0 := by
            rw [part_some hk, if_neg (by simp [ofEscrow, hkk])]
          simp only [total_append, total_one, hp, Nat.add_zero]

end Verif
