import Verif.SpecPledge
import Verif.Props.ListLimit
import Verif.Props.Lifecycle
import Verif.Props.Deposit
import Verif.Props.Machine
import Verif.Lemmas.Sums
import Verif.Lemmas.Evolve
import Verif.Props.Lists
import Verif.Props.More
/-!
# C107: who stays decides

In a sale with withdrawals deposits may leave until the last second. What is counted in the end is what stays: a group
that stays with the minimum cap between them makes the sale succeed whatever all others do, and whoever holds so much
that the rest is below the minimum can leave and let it fail.
-/

namespace Verif
open Spec

theorem saleSum_le_total {w : World} (R : Reachable w) {a : Addr} {p : Presale} (hp : w.presales a = some p) :
    saleSum w.escrows a Escrow.totalDeposit ≤ p.totalDeposit := by
  have P := (R.winv.core.sale a p hp).pinv
  rw [saleSum_split P.idx_lt, P.book.totDep]
  have := lsum_indexed (l := p.registries) (F := fun i => esum w.escrows a i Escrow.totalDeposit) (A := fun _ => 0)
    (B := Registry.totalDeposit) (fun i r hr => (P.book.reg i r hr).dep)
  have h0 : lsum (fun _ : Registry => 0) p.registries = 0 := lsum_zero (fun _ _ _ => rfl)
  omega

/-- Deposit under an address, if it is an escrow of sale `a`. -/
def depositAt (es : AMap Addr Escrow) (a k : Addr) : Nat :=
  match es.get? k with
  | some e => if e.presale = a then e.totalDeposit else 0
  | none => 0

theorem sum_keys {es : AMap Addr Escrow} (hn : (AMap.keys es).Nodup) (a : Addr) :
    ((AMap.keys es).map (depositAt es a)).sum = saleSum es a Escrow.totalDeposit := by
  unfold saleSum AMap.keys
  rw [List.map_map]
  congr 1
  apply List.map_congr_left
  intro x hx
  have : es.get? x.1 = some x.2 := AMap.mem_get? hn hx
  simp only [Function.comp, depositAt, this]

theorem pledge_le {w : World} (R : Reachable w) {a : Addr} {p : Presale} (hp : w.presales a = some p)
    {l : List (Addr × Nat)} (H : Pledged w a l) : pledge l ≤ p.totalDeposit := by
  have h1 : pledge l ≤ ((l.map Prod.fst).map (depositAt w.escrows a)).sum := by
    unfold pledge
    rw [List.map_map]
    apply List.sum_le_sum
    intro x hx
    obtain ⟨e, h1, h2, h3⟩ := H.held x hx
    simp only [Function.comp, depositAt, h1, if_pos h2]
    exact h3
  have h2 := sum_subset (depositAt w.escrows a) H.distinct (ys := AMap.keys w.escrows) (by
    intro k hk
    obtain ⟨x, hx, rfl⟩ := List.mem_map.1 hk
    obtain ⟨e, g1, -, -⟩ := H.held x hx
    exact List.mem_map.2 ⟨(x.1, e), AMap.get?_mem g1, rfl⟩)
  rw [sum_keys R.winv.core.nodup a] at h2
  have h3 := saleSum_le_total R hp
  omega

theorem pledged_step {w w' : World} (R : Reachable w) {op : Op} {rc : Receipt} (h : step w op = .ok (w', rc))
    {a : Addr} {p : Presale} (hp : w.presales a = some p) (ho : ¬ Over p w.clock) {l : List (Addr × Nat)}
    (H : Pledged w a l) (pos : ∀ x ∈ l, 0 < x.2)
    (hk : ∀ tx x, op = .ix tx (.withdraw x) → x.escrow ∉ l.map Prod.fst) : Pledged w' a l := by
  refine ⟨H.distinct, fun y hy => ?_⟩
  obtain ⟨e, g1, g2, g3⟩ := H.held y hy
  have hpos := pos y hy
  have hmem : y.1 ∈ l.map Prod.fst := List.mem_map_of_mem hy
  have W := R.winv
  have E := step_effect W h
  rcases E.escrow W g1 with h1 | ⟨tx, i, q, hop, hq, hclk, h1⟩
  · exact ⟨e, h1, g2, g3⟩
  · rw [g2, hp] at hq; cases hq
    have hid := h1.identity
    generalize hget : w'.escrows.get? y.1 = o at h1 hid
    cases h1 with
    | deposit _ _ _ F =>
      refine ⟨_, rfl, (hid _ rfl).presale.trans g2, g3.trans ?_⟩
      rw [F.escrow]
      exact Nat.le_add_right _ _
    | withdraw a1 a2 _ F => exact absurd (by rw [a2]; exact hmem) (hk _ _ hop)
    | refreshed => exact ⟨_, rfl, (hid _ rfl).presale.trans g2, g3⟩
    | claimed => exact ⟨_, rfl, (hid _ rfl).presale.trans g2, g3⟩
    | refunded => exact ⟨_, rfl, (hid _ rfl).presale.trans g2, g3⟩
    | closed a1 a2 =>
      exfalso
      subst hop
      obtain ⟨q, f, r, D⟩ := (C72_does_iff R _ _ _).1 ⟨rc, h⟩
      have hq := D.presale
      rw [a1, g2, hp] at hq; cases hq
      have hf := D.escrow.1
      rw [a2, g1] at hf; cases hf
      have := D.empty ho
      omega

theorem pledge_filter (l : List (Addr × Nat)) : pledge (l.filter fun x => decide (0 < x.2)) = pledge l := by
  unfold pledge
  induction l with
  | nil => rfl
  | cons x l ih =>
    by_cases h : 0 < x.2
    · rw [List.filter_cons_of_pos (by simpa using h), List.map_cons, List.map_cons, List.sum_cons, List.sum_cons, ih]
    · rw [List.filter_cons_of_neg (by simpa using h), List.map_cons, List.sum_cons, ih]
      omega

theorem counts_pos {w : World} (R : Reachable w) {a : Addr} {p : Presale} (hp : w.presales a = some p)
    {l : List (Addr × Nat)} (H : Pledged w a l) (pos : ∀ x ∈ l, 0 < x.2) (ops : List Op) (hk : Kept l ops) :
    ∃ p', (run w ops).presales a = some p' ∧ pledge l ≤ p'.totalDeposit := by
  induction ops generalizing w p with
  | nil => exact ⟨p, hp, pledge_le R hp H⟩
  | cons op ops ih =>
    by_cases ho : Over p w.clock
    · obtain ⟨p', h1, h2, -⟩ := C03_frozen R hp ho (op :: ops)
      exact ⟨p', h1, by rw [h2]; exact pledge_le R hp H⟩
    · change ∃ p', (run (apply w op) ops).presales a = some p' ∧ _
      have hk' : Kept l ops := fun tx x hx => hk tx x (List.mem_cons_of_mem _ hx)
      rcases apply_cases w op with e | ⟨rc, hs⟩
      · rw [e]; exact ih R hp H hk'
      · obtain ⟨q, hq, -⟩ := (step_effect R.winv hs).later R.winv hp
        exact ih (R.step hs) hq (pledged_step R hs hp ho H pos
          fun tx x hx => hk tx x (by rw [hx]; exact List.mem_cons_self)) hk'

/-- **C107.** As long as nobody withdraws from certain escrows, the total of the sale never falls below what is in them,
whatever else happens, before and after the end. -/
theorem C107_counts {w : World} (R : Reachable w) {a : Addr} {p : Presale} (hp : w.presales a = some p)
    {l : List (Addr × Nat)} (H : Pledged w a l) (ops : List Op) (hk : Kept l ops) :
    ∃ p', (run w ops).presales a = some p' ∧ pledge l ≤ p'.totalDeposit := by
  have hsub : (l.filter fun x => decide (0 < x.2)).Sublist l := List.filter_sublist
  have hm := hsub.map Prod.fst
  rw [← pledge_filter l]
  refine counts_pos R hp ⟨H.distinct.sublist hm, fun x hx => H.held x (hsub.subset hx)⟩ ?_ ops
    fun tx x hx hin => hk tx x hx (hm.subset hin)
  intro x hx
  simpa using (List.mem_filter.1 hx).2

/-- **C107**, success. If those who stay hold the minimum cap between them, the sale cannot fail any more. -/
theorem C107_succeeds {w : World} (R : Reachable w) {a : Addr} {p : Presale} (hp : w.presales a = some p)
    {l : List (Addr × Nat)} (H : Pledged w a l) (hmin : p.presaleMinimumCap ≤ pledge l) (ops : List Op)
    (hk : Kept l ops) :
    ∃ p', (run w ops).presales a = some p' ∧ ¬ Failed p' (run w ops).clock ∧
      (Over p' (run w ops).clock → Completed p' (run w ops).clock) := by
  obtain ⟨p', h1, h2⟩ := C107_counts R hp H ops hk
  obtain ⟨q, h3, L⟩ := run_later R.winv ops hp
  rw [h1] at h3; cases h3
  have hc : p'.presaleMinimumCap = p.presaleMinimumCap := (congrArg Presale.presaleMinimumCap L.terms :)
  have hle : p'.presaleMinimumCap ≤ p'.totalDeposit := by omega
  exact ⟨p', h1, fun f => absurd f.2 (Nat.not_lt.2 hle), fun o => ⟨o, hle⟩⟩

/-- **C107**, failure. In a sale with withdrawals whoever holds so much that the rest is below the minimum cap can leave
at any moment before the end, and unless others pay in after that the sale fails. -/
theorem C107_sinks {w : World} (R : Reachable w) {tx : Tx} {x : WithdrawAcc} {p : Presale} {e : Escrow}
    (hp : w.presales x.presale = some p) (he : w.escrows.get? x.escrow = some e)
    (hb : e.presale = x.presale) (ho : x.owner = e.owner) (hs : tx.signed e.owner = true)
    (hongoing : Ongoing p w.clock) (hallowed : WithdrawAllowed p)
    (hpos : 0 < e.totalDeposit) (hall : x.maxAmount = e.totalDeposit)
    (hv : x.quoteTokenVault = p.quoteTokenVault) (hm : x.quoteMint = p.quoteMint)
    (hpay : Payable w.tk tx .transferHookQuote p.quoteMint p.quoteTokenVault x.ownerQuoteToken x.tokenProgram
      x.remaining x.slices e.totalDeposit)
    (hneed : p.totalDeposit < p.presaleMinimumCap + e.totalDeposit) (n : Nat)
    (hn : (p.presaleEndTime : Int) ≤ w.clock + n) :
    ∃ p', (run w [.ix tx (.withdraw x), .tick n]).presales x.presale = some p' ∧
      Failed p' (run w [.ix tx (.withdraw x), .tick n]).clock := by
  obtain ⟨w', rc, e', hstep, he', hz, -⟩ := C25_exit R hp he hb ho hs hongoing hallowed hpos hall hv hm hpay
  obtain ⟨q, q', f, f', r, r', k, D⟩ := C25_withdraw R hstep
  have h := D.presale
  rw [hp] at h; cases h
  have h := D.escrow
  rw [he] at h; cases h
  have h := D.escrow'
  rw [he'] at h; cases h
  obtain ⟨q, hq, L⟩ := (step_effect R.winv hstep).later R.winv hp
  rw [D.presale'] at hq; cases hq
  have hclk : w'.clock = w.clock := by
    obtain ⟨_, _, _, _, _, D'⟩ := (C72_does_iff R tx (.withdraw x) w').1 ⟨rc, hstep⟩
    rw [D'.post]
  have hrun : run w [.ix tx (.withdraw x), .tick n] = { w' with clock := w'.clock + n } := by
    change apply (apply w (.ix tx (.withdraw x))) (.tick n) = _
    rw [apply_ok hstep]
    rfl
  rw [hrun]
  have hc : q'.presaleMinimumCap = p.presaleMinimumCap := (congrArg Presale.presaleMinimumCap L.terms :)
  have h1 := D.escrowDeposit.1
  have h2 := D.presaleDeposit.1
  have hend := L.shifted.earlier
  refine ⟨q', D.presale', ?_, by omega⟩
  change (q'.presaleEndTime : Int) ≤ w'.clock + n
  rw [hclk]
  omega

/-! ## Several leave together -/

/-- A payment out of a vault does not get in the way of another one to a different account. -/
theorem payable_after {k k' : Tokens} {tx tx2 : Tx} {mint vault dst dst2 : Addr} {prog prog2 : TokenProgram}
    {n n2 : Nat} {kind : AccountsType} {rem : List Addr} {sl : List RemSlice}
    (P : PaidOut k tx mint vault dst prog n k') (hd : dst2 ≠ dst)
    (Q : Payable k tx2 kind mint vault dst2 prog2 rem sl n2) : Payable k' tx2 kind mint vault dst2 prog2 rem sl n2 := by
  obtain ⟨-, m, v, d, hm, -, hv, hvf, hdd, hdm, hdf, ⟨-, rfl⟩ | ⟨hne, -, rfl⟩⟩ := P
  · exact Q
  · refine ⟨Q.accepted, Q.program, Q.hooks, ?_, ?_⟩
    · intro v' hv'
      change upd (upd k.toks vault _) dst _ vault = some v' at hv'
      rw [upd_other _ _ hne, upd_self] at hv'
      cases hv'
      exact hvf
    · obtain ⟨d2, h1, h2, h3, h4⟩ := Q.receiver
      by_cases hv2 : dst2 = vault
      · subst hv2
        rw [hv] at h1; cases h1
        refine ⟨{ v with amount := v.amount - n }, ?_, h2, h3, fun m' hm' => ?_⟩
        · change upd (upd k.toks dst2 _) dst _ dst2 = _
          rw [upd_other _ _ hd, upd_self]
        · have := h4 m' hm'
          change v.amount - n + _ < _
          omega
      · refine ⟨d2, ?_, h2, h3, h4⟩
        change upd (upd k.toks vault _) dst _ dst2 = _
        rw [upd_other _ _ hd, upd_other _ _ hv2, h1]

/-- **C107**, failure, of a group. In a sale with withdrawals any group of buyers who hold so much between them that the
rest is below the minimum cap can leave one after another at any moment before the end, and unless others pay in after
that the sale fails. -/
theorem C107_sinks_together {w : World} (R : Reachable w) {a : Addr} {p : Presale} {zs : List (Tx × WithdrawAcc)}
    (hp : w.presales a = some p) (hongoing : Ongoing p w.clock) (hallowed : WithdrawAllowed p)
    (hz : ∀ z ∈ zs, Leaves w a p z.1 z.2) (h1 : (zs.map fun z => z.2.escrow).Nodup)
    (h2 : (zs.map fun z => z.2.ownerQuoteToken).Nodup)
    (hneed : p.totalDeposit < p.presaleMinimumCap + stake w zs) (n : Nat)
    (hn : (p.presaleEndTime : Int) ≤ w.clock + n) :
    ∃ p', (run w (zs.map leaving ++ [.tick n])).presales a = some p' ∧
      Failed p' (run w (zs.map leaving ++ [.tick n])).clock := by
  induction zs generalizing w p with
  | nil => exact ⟨p, hp, hn, by simpa [stake] using hneed⟩
  | cons z zs ih =>
    obtain ⟨tx, x⟩ := z
    obtain ⟨e, V⟩ := hz (tx, x) (List.mem_cons_self ..)
    have hpa := V.here
    subst hpa
    obtain ⟨w', rc, e', hstep, he', hz0, -⟩ :=
      C25_exit R hp V.escrow V.belongs V.owner V.signed hongoing hallowed V.positive V.all V.vault V.mint V.payable
    obtain ⟨q, f, r, k, tk', D⟩ := (C72_does_iff R tx (.withdraw x) w').1 ⟨rc, hstep⟩
    have h := D.presale
    rw [hp] at h; cases h
    have h := D.escrow.1
    rw [V.escrow] at h; cases h
    have hk : k = e.totalDeposit := by
      have h := D.taken.2
      unfold WithdrawTaken at h
      rw [if_pos (.inr V.all)] at h
      rw [h, V.all]
    subst hk
    rw [List.map_cons, List.cons_append]
    rw [show run w (leaving (tx, x) :: (zs.map leaving ++ [.tick n])) = run (apply w (leaving (tx, x)))
      (zs.map leaving ++ [.tick n]) from rfl, show apply w (leaving (tx, x)) = w' from apply_ok hstep]
    have R' := R.step hstep
    have hpost := D.post
    have hn1 := List.nodup_cons.1 h1
    have hn2 := List.nodup_cons.1 h2
    have hle : e.totalDeposit ≤ p.totalDeposit := by
      have S := stake_le R hp V.escrow V.belongs D.registry
      omega
    have hp' : w'.presales x.presale = some { p with
      registries := p.registries.set e.registryIndex { r with totalDeposit := r.totalDeposit - e.totalDeposit },
      totalDeposit := p.totalDeposit - e.totalDeposit } := by
      rw [hpost]; exact upd_self _ _ _
    have hclk : w'.clock = w.clock := by rw [hpost]
    have hget : ∀ z ∈ zs, w'.escrows.get? z.2.escrow = w.escrows.get? z.2.escrow := by
      intro z hzm
      rw [hpost]
      change (w.escrows.set x.escrow _).get? z.2.escrow = _
      rw [AMap.get?_set, if_neg]
      intro h
      exact hn1.1 (List.mem_map.2 ⟨z, hzm, h⟩)
    refine ih R' hp' (by rw [hclk]; exact hongoing) hallowed ?_ hn1.2 hn2.2 ?_ ?_
    · intro z hzm
      obtain ⟨f, U⟩ := hz z (List.mem_cons_of_mem _ hzm)
      refine ⟨f, { U with escrow := (hget z hzm).trans U.escrow, payable := ?_ }⟩
      have htk : w'.tk = tk' := by rw [hpost]
      rw [htk]
      refine payable_after D.payment ?_ U.payable
      intro h
      exact hn2.1 (List.mem_map.2 ⟨z, hzm, h⟩)
    · have hs : stake w' zs = stake w zs := by
        unfold stake
        refine congrArg List.sum (List.map_congr_left fun z hzm => ?_)
        rw [hget z hzm]
      have hs2 : stake w ((tx, x) :: zs) = e.totalDeposit + stake w zs := by
        unfold stake
        rw [List.map_cons, List.sum_cons, V.escrow]
      rw [hs2] at hneed
      rw [hs]
      change p.totalDeposit - e.totalDeposit < p.presaleMinimumCap + _
      omega
    · rw [hclk]; exact hn

/-! ## Examples -/

namespace Ex

/-- A pro-rata sale with minimum cap 100 in which Alice has 100 and Bob 90. -/
def pledgeWorld : World := run genesis [init 1 0 0 reg1, .tick 10, open' alice, open' bob,
  deposit alice aliceQuote 100, deposit bob bobQuote 90]

/-- Alice's pledge. -/
def alicePledge : List (Addr × Nat) := [(escrowOf alice, 100)]

example : Pledged pledgeWorld sale alicePledge := by
  refine ⟨by decide, ?_⟩
  intro x hx
  rw [List.mem_singleton.1 hx]
  obtain ⟨e, h1, h2⟩ := hasEsc_some (w := pledgeWorld) (k := escrowOf alice)
    (f := fun e => decide (e.presale = sale ∧ e.totalDeposit = 100)) (by decide +kernel)
  obtain ⟨h3, h4⟩ := of_decide_eq_true h2
  exact ⟨e, h1, h3, by rw [h4]⟩

/-- Bob leaves and the sale is completed. If Alice leaves it fails: the rest is below the minimum. -/
example : has pledgeWorld (fun p => decide (p.presaleMinimumCap = 100 ∧ p.totalDeposit = 190)) = true ∧
    has (run pledgeWorld [withdraw bob bobQuote 90, .tick 100000]) (fun p =>
      decide ((p.presaleEndTime : Int) ≤ (run pledgeWorld [withdraw bob bobQuote 90, .tick 100000]).clock ∧
        p.totalDeposit = 100)) = true ∧
    has (run pledgeWorld [withdraw alice aliceQuote 100, .tick 100000]) (fun p =>
      decide ((p.presaleEndTime : Int) ≤ (run pledgeWorld [withdraw alice aliceQuote 100, .tick 100000]).clock ∧
        p.totalDeposit = 90)) = true := by decide +kernel

end Ex

namespace Ex

/-- Alice and Bob have 120 each; either of them may leave, but not both. -/
def pairWorld : World := run genesis [init 1 0 0 reg1, .tick 10, open' alice, open' bob,
  deposit alice aliceQuote 120, deposit bob bobQuote 120]

def bothLeave : List (Tx × WithdrawAcc) :=
  [(tx [alice], withdrawAcc alice aliceQuote 120), (tx [bob], withdrawAcc bob bobQuote 120)]

/-- They meet the hypotheses of `C107_sinks_together`, and neither does alone. -/
example : ∃ p, pairWorld.presales sale = some p ∧ Ongoing p pairWorld.clock ∧ WithdrawAllowed p ∧
    (∀ z ∈ bothLeave, Leaves pairWorld sale p z.1 z.2) ∧ (bothLeave.map fun z => z.2.escrow).Nodup ∧
    (bothLeave.map fun z => z.2.ownerQuoteToken).Nodup ∧
    p.totalDeposit < p.presaleMinimumCap + stake pairWorld bothLeave ∧
    ∀ z ∈ bothLeave, p.presaleMinimumCap + stake pairWorld [z] ≤ p.totalDeposit := by
  obtain ⟨p, hp, hd⟩ := has_some (w := pairWorld) (f := fun p => decide
    ((p.presaleStartTime : Int) ≤ pairWorld.clock ∧ pairWorld.clock < p.presaleEndTime ∧ p.presaleMode = 1 ∧
     p.quoteTokenVault = .quoteVault sale ∧ p.quoteMint = qm ∧
     p.totalDeposit < p.presaleMinimumCap + stake pairWorld bothLeave ∧
     ∀ z ∈ bothLeave, p.presaleMinimumCap + stake pairWorld [z] ≤ p.totalDeposit)) (by decide +kernel)
  obtain ⟨h1, h2, h3, h4, h5, h6, h7⟩ := of_decide_eq_true hd
  refine ⟨p, hp, ⟨h1, h2⟩, .inl h3, ?_, by decide, by decide, h6, h7⟩
  have key : ∀ o t, hasEsc pairWorld (escrowOf o) (fun e => decide (e.presale = sale ∧ e.owner = o ∧
      e.totalDeposit = 120)) = true → (tx [o]).signed o = true →
      Payable pairWorld.tk (tx [o]) .transferHookQuote qm (.quoteVault sale) t .splToken2022 [] [] 120 →
      Leaves pairWorld sale p (tx [o]) (withdrawAcc o t 120) := by
    intro o t he hs hpay
    obtain ⟨e, k1, k2⟩ := hasEsc_some he
    obtain ⟨k3, k4, k5⟩ := of_decide_eq_true k2
    exact ⟨e, rfl, k1, k3, k4.symm, by rw [k4]; exact hs, by omega, k5.symm, h4.symm, h5.symm,
      by rw [h4, h5, k5]; exact hpay⟩
  intro z hz
  rcases List.mem_cons.1 hz with rfl | hz
  · exact key alice aliceQuote (by decide +kernel) (by decide +kernel) (payable_ok (by decide +kernel) _ _)
  · rw [List.mem_singleton.1 hz]
    exact key bob bobQuote (by decide +kernel) (by decide +kernel) (payable_ok (by decide +kernel) _ _)

/-- And so it goes. -/
example : has (run pairWorld (bothLeave.map leaving ++ [.tick 100000])) (fun p =>
    decide ((p.presaleEndTime : Int) ≤ (run pairWorld (bothLeave.map leaving ++ [.tick 100000])).clock ∧
      p.totalDeposit = 0)) = true := by decide +kernel

end Ex

end Verif
