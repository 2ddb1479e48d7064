import Verif.Model.Transactions
import Verif.Props.Lamports
import Verif.Props.Lifecycle
import Verif.Props.Closing
import Verif.Props.Admin
/-!
# Transactions of several instructions (C63)
-/

namespace Verif
open Spec

/-! ## Specification -/

/-- The instructions succeed one after the other, leading from `c` to `c'`. -/
inductive Spec.Executes (signers : List Addr) : Chain → List TIx → Chain → Prop
  | done (c : Chain) : Executes signers c [] c
  | own {c c1 c2 : Chain} {s : List Addr} {acc : Bool} {i : Ix} {rc : Receipt} {ts : List TIx}
      (first : cstep c (.op (.ix ⟨signers ++ s, acc⟩ i)) = .ok (c1, rc)) (rest : Executes signers c1 ts c2) :
      Executes signers c (.own s acc i :: ts) c2
  | other {c c1 c2 : Chain} {o : COp} {rc : Receipt} {ts : List TIx}
      (kind : ∀ tx i n, o ≠ .op (.ix tx i) ∧ o ≠ .op (.tick n)) (first : cstep c o = .ok (c1, rc))
      (rest : Executes signers c1 ts c2) : Executes signers c (.other o :: ts) c2

/-! ## Lemmas -/

theorem TIx.op_other {s : List Addr} {o o' : COp} (h : (TIx.other o).op s = some o') :
    o' = o ∧ ∀ tx i n, o ≠ .op (.ix tx i) ∧ o ≠ .op (.tick n) := by
  cases o with
  | op o => cases o <;> simp [TIx.op] at h <;> simp [← h]
  | setLam a n => simp [TIx.op] at h; simp [← h]

theorem TIx.op_other_some {s : List Addr} {o : COp} (h : ∀ tx i n, o ≠ .op (.ix tx i) ∧ o ≠ .op (.tick n)) :
    (TIx.other o).op s = some o := by
  cases o with
  | op o =>
    cases o with
    | tick n => exact absurd rfl (h ⟨[], true⟩ (.closeFixedArgs ⟨.key 0, .key 0⟩) n).2
    | ix tx i => exact absurd rfl (h tx i 0).1
    | _ => rfl
  | setLam a n => rfl

theorem exec_iff {signers : List Addr} {c c' : Chain} {ts : List TIx} :
    (∃ rcs, exec signers c ts = .ok (c', rcs)) ↔ Executes signers c ts c' := by
  constructor
  · rintro ⟨rcs, h⟩
    induction ts generalizing c rcs with
    | nil => cases h; exact .done _
    | cons t ts ih =>
      unfold exec at h
      cases ho : t.op signers with
      | none => rw [ho] at h; cases h
      | some o =>
        rw [ho] at h
        simp only [bind_eq_ok, Prod.exists, pure_eq_ok, Prod.mk.injEq] at h
        obtain ⟨c1, rc, h1, c2, rcs', h2, rfl, _⟩ := h
        cases t with
        | own s acc i => cases ho; exact .own h1 (ih _ h2)
        | other o' =>
          obtain ⟨rfl, hk⟩ := TIx.op_other ho
          exact .other hk h1 (ih _ h2)
  · intro h
    induction h with
    | done c => exact ⟨[], rfl⟩
    | @own c c1 c2 s acc i rc ts h1 _ ih =>
      obtain ⟨rcs, h2⟩ := ih
      refine ⟨rc :: rcs, ?_⟩
      unfold exec
      simp only [TIx.op, bind_eq_ok, Prod.exists, pure_eq_ok]
      exact ⟨_, _, h1, _, _, h2, rfl⟩
    | @other c c1 c2 o rc ts hk h1 _ ih =>
      obtain ⟨rcs, h2⟩ := ih
      refine ⟨rc :: rcs, ?_⟩
      unfold exec
      simp only [TIx.op_other_some hk, bind_eq_ok, Prod.exists, pure_eq_ok]
      exact ⟨_, _, h1, _, _, h2, rfl⟩

theorem Spec.Executes.append {s : List Addr} {c c' : Chain} {ts us : List TIx} (h : Executes s c (ts ++ us) c') :
    ∃ c1, Executes s c ts c1 ∧ Executes s c1 us c' := by
  induction ts generalizing c with
  | nil => exact ⟨c, .done c, h⟩
  | cons t ts ih =>
    cases h with
    | own h1 h2 =>
      obtain ⟨c1, g1, g2⟩ := ih h2
      exact ⟨c1, .own h1 g1, g2⟩
    | other hk h1 h2 =>
      obtain ⟨c1, g1, g2⟩ := ih h2
      exact ⟨c1, .other hk h1 g1, g2⟩

/-- The operations behind a successful list of instructions. -/
theorem Spec.Executes.crun {S : List Addr} {c c' : Chain} {ts : List TIx} (h : Executes S c ts c') :
    ∃ os, c' = crun c os := by
  induction h with
  | done c => exact ⟨[], rfl⟩
  | @own c c1 c2 s acc i rc ts h1 _ ih =>
    obtain ⟨os, rfl⟩ := ih
    refine ⟨.op (.ix ⟨S ++ s, acc⟩ i) :: os, ?_⟩
    show _ = Verif.crun (capply _ _) os
    rw [capply, h1]
  | @other c c1 c2 o rc ts _ h1 _ ih =>
    obtain ⟨os, rfl⟩ := ih
    refine ⟨o :: os, ?_⟩
    show _ = Verif.crun (capply _ _) os
    rw [capply, h1]

theorem crun_world (c : Chain) (os : List COp) : ∃ ops, (crun c os).w = run c.w ops := by
  induction os using List.reverseRecOn with
  | nil => exact ⟨[], rfl⟩
  | append_singleton os o ih =>
    obtain ⟨ops, h⟩ := ih
    rw [crun_snoc]
    rcases capply_cases (crun c os) o with he | ⟨rc, hs⟩
    · rw [he]; exact ⟨ops, h⟩
    · rcases (cstep_world hs).2 with ⟨op, _, hs'⟩ | hw
      · refine ⟨ops ++ [op], ?_⟩
        rw [run_snoc, ← h, apply_ok hs']
      · rw [hw]; exact ⟨ops, h⟩

theorem trun_snoc (c : Chain) (os : List TOp) (o : TOp) : trun c (os ++ [o]) = tapply (trun c os) o := by
  induction os generalizing c with
  | nil => rfl
  | cons x os ih => exact ih _

theorem crun_append (c : Chain) (os os' : List COp) : crun c (os ++ os') = crun (crun c os) os' := by
  induction os generalizing c with
  | nil => rfl
  | cons x os ih => exact ih _

/-! ## C63 -/

/-- **C63.** A transaction either leaves everything as it was, or all of its instructions succeeded in order. -/
theorem C63_all_or_nothing (c : Chain) (t : Transaction) :
    tapply c (.tx t) = c ∨ Executes t.signers c t.items (tapply c (.tx t)) := by
  simp only [tapply]
  split
  · next c' rcs h => exact .inr (exec_iff.1 ⟨rcs, h⟩)
  · exact .inl rfl

theorem tapply_crun (c : Chain) (o : TOp) : ∃ os, tapply c o = crun c os := by
  cases o with
  | tick n => exact ⟨[.op (.tick n)], rfl⟩
  | tx t =>
    rcases C63_all_or_nothing c t with h | h
    · rw [h]; exact ⟨[], rfl⟩
    · exact h.crun

theorem capply_trun (c : Chain) (o : COp) : ∃ t, capply c o = tapply c t := by
  have other : ∀ o : COp, (∀ tx i n, o ≠ .op (.ix tx i) ∧ o ≠ .op (.tick n)) →
      ∃ t, capply c o = tapply c t := by
    intro o ho
    refine ⟨.tx ⟨[], [.other o]⟩, ?_⟩
    simp only [tapply, exec, TIx.op_other_some ho, capply]
    cases h : cstep c o with
    | error e => rfl
    | ok r => rfl
  cases o with
  | setLam a n => exact other _ (by simp)
  | op o =>
    cases o with
    | tick n => exact ⟨.tick n, rfl⟩
    | ix tx i =>
      refine ⟨.tx ⟨tx.signers, [.own [] tx.accept i]⟩, ?_⟩
      simp only [tapply, exec, TIx.op, capply, List.append_nil]
      cases h : cstep c (.op (.ix tx i)) with
      | error e => rfl
      | ok r => rfl
    | _ => exact other _ (by simp)

/-- **C63.** Transactions reach exactly the states that single operations reach. Hence every theorem of this
development about reachable states holds between transactions. -/
theorem C63_same_states (c : Chain) : TReachable c ↔ CReachable c := by
  constructor
  · rintro ⟨c0, os, h0, rfl⟩
    induction os using List.reverseRecOn with
    | nil => exact ⟨c0, [], h0, rfl⟩
    | append_singleton os o ih =>
      rw [trun_snoc]
      obtain ⟨os', h⟩ := tapply_crun (trun c0 os) o
      rw [h]
      exact ih.run os'
  · rintro ⟨c0, os, h0, rfl⟩
    induction os using List.reverseRecOn with
    | nil => exact ⟨c0, [], h0, rfl⟩
    | append_singleton os o ih =>
      rw [crun_snoc]
      obtain ⟨c1, os', h1, h2⟩ := ih
      obtain ⟨t, ht⟩ := capply_trun (crun c0 os) o
      refine ⟨c1, os' ++ [t], h1, ?_⟩
      rw [ht, trun_snoc, ← h2]

/-- **C63.** Each instruction of a transaction runs in a reachable state, even if a later one fails: what is proved
about single instructions holds inside transactions. -/
theorem C63_inside {c c' : Chain} (R : TReachable c) {s : List Addr} {pre : List TIx}
    (h : Executes s c pre c') : CReachable c' := by
  obtain ⟨os, rfl⟩ := h.crun
  exact ((C63_same_states c).1 R).run os

/-! ### One transaction happens at one time -/

theorem cstep_clock {c c' : Chain} {o : COp} {rc : Receipt} (h : cstep c o = .ok (c', rc))
    (hk : ∀ n, o ≠ .op (.tick n)) : c'.w.clock = c.w.clock := by
  rcases (cstep_world h).2 with ⟨op, rfl, hs⟩ | hw
  · exact step_clock hs fun n e => hk n (by rw [e])
  · rw [hw]

theorem Spec.Executes.clock {S : List Addr} {c c' : Chain} {ts : List TIx} (h : Executes S c ts c') :
    c'.w.clock = c.w.clock := by
  induction h with
  | done c => rfl
  | own h1 _ ih => exact ih.trans (cstep_clock h1 (by simp))
  | other hk h1 _ ih => exact ih.trans (cstep_clock h1 fun n => (hk ⟨[], true⟩ (.closeFixedArgs ⟨.key 0, .key 0⟩) n).2)

/-- The transaction deposits into the sale. -/
def Spec.Deposits (a : Addr) (ts : List TIx) : Prop :=
  ∃ s acc x, TIx.own s acc (.deposit x) ∈ ts ∧ x.presale = a

/-- One step without passing of time keeps the phase of a sale, unless a deposit completes it. -/
theorem phase_step {c c' : Chain} (R : CReachable c) {o : COp} {rc : Receipt} (h : cstep c o = .ok (c', rc))
    (hk : ∀ n, o ≠ .op (.tick n)) {a : Addr} {p : Presale} (hp : c.w.presales a = some p) :
    ∃ p', c'.w.presales a = some p' ∧ p'.presaleStartTime = p.presaleStartTime ∧
      (EarlyEndAllowed p' ↔ EarlyEndAllowed p) ∧
      (p'.presaleEndTime = p.presaleEndTime ∨
        (Ongoing p c.w.clock ∧ Completed p' c.w.clock ∧ EarlyEndAllowed p ∧
          ∃ tx x, o = .op (.ix tx (.deposit x)) ∧ x.presale = a)) := by
  have RW := C62_refines R
  rcases (cstep_world h).2 with ⟨op, rfl, hs⟩ | hw
  · obtain ⟨p', hp', L⟩ := run_later RW.winv [op] hp
    have hrun : run c.w [op] = c'.w := by show apply c.w op = _; exact apply_ok hs
    rw [hrun] at hp'
    have t1 : p'.presaleStartTime = p.presaleStartTime := (congrArg Presale.presaleStartTime L.terms :)
    have t2 : p'.presaleMode = p.presaleMode := (congrArg Presale.presaleMode L.terms :)
    have t3 : p'.raw0 = p.raw0 := (congrArg Presale.raw0 L.terms :)
    have t4 : p'.raw1 = p.raw1 := (congrArg Presale.raw1 L.terms :)
    refine ⟨p', hp', t1, by unfold EarlyEndAllowed; rw [t2, t3, t4], ?_⟩
    rcases C18_only_deposits RW hs hp hp' with ⟨_, h2, _⟩ | ⟨tx, x, rfl, rfl⟩
    · exact .inl h2
    · obtain ⟨q, q', g1, g2, g3, g4⟩ := C18_early_finish RW hs
      rw [hp] at g1; cases g1
      rw [hp'] at g2; cases g2
      rcases g4 with ⟨e1, e2, e3, e4, e5, _⟩ | ⟨_, e1, _⟩
      · obtain ⟨q, g5, g6⟩ := C17_phases RW hs (a := x.presale) (P := Ongoing) rfl
        rw [hp] at g5; cases g5
        rw [g3] at e5
        exact .inr ⟨g6, e5, e1, tx, x, rfl, rfl⟩
      · exact .inl e1
  · rw [hw]; exact ⟨p, hp, rfl, Iff.rfl, .inl rfl⟩

theorem completed_stays {c c' : Chain} (R : CReachable c) {S : List Addr} {ts : List TIx} (h : Executes S c ts c')
    {a : Addr} {p : Presale} (hp : c.w.presales a = some p) :
    ∃ p', c'.w.presales a = some p' ∧ (Completed p c.w.clock → Completed p' c'.w.clock) ∧
      (Failed p c.w.clock → Failed p' c'.w.clock) := by
  obtain ⟨os, rfl⟩ := h.crun
  obtain ⟨ops, ho⟩ := crun_world c os
  rw [ho]
  obtain ⟨p', h1, h2, h3, _⟩ := C16_irreversible (C62_refines R) hp ops
  exact ⟨p', h1, h2, h3⟩

/-- Within a transaction the dates of a sale stay the same or a deposit completes it. -/
theorem phase_exec {c c' : Chain} (R : CReachable c) {S : List Addr} {ts : List TIx} (h : Executes S c ts c')
    {a : Addr} {p : Presale} (hp : c.w.presales a = some p) :
    ∃ p', c'.w.presales a = some p' ∧ p'.presaleStartTime = p.presaleStartTime ∧
      (p'.presaleEndTime = p.presaleEndTime ∨
       (Ongoing p c.w.clock ∧ Completed p' c.w.clock ∧ EarlyEndAllowed p ∧ Deposits a ts)) := by
  have join : ∀ {c c1 c2 : Chain} {o : COp} {rc : Receipt} {ts : List TIx} {t : TIx} {p : Presale},
      CReachable c → cstep c o = .ok (c1, rc) → (∀ n, o ≠ .op (.tick n)) →
      (∀ tx x, o = .op (.ix tx (.deposit x)) → ∃ s acc, t = .own s acc (.deposit x)) →
      Executes S c1 ts c2 →
      (∀ {q : Presale}, c1.w.presales a = some q → ∃ p', c2.w.presales a = some p' ∧
          p'.presaleStartTime = q.presaleStartTime ∧ (p'.presaleEndTime = q.presaleEndTime ∨
           (Ongoing q c1.w.clock ∧ Completed p' c1.w.clock ∧ EarlyEndAllowed q ∧ Deposits a ts))) →
      c.w.presales a = some p →
      ∃ p', c2.w.presales a = some p' ∧ p'.presaleStartTime = p.presaleStartTime ∧
        (p'.presaleEndTime = p.presaleEndTime ∨
         (Ongoing p c.w.clock ∧ Completed p' c.w.clock ∧ EarlyEndAllowed p ∧ Deposits a (t :: ts))) := by
    intro c c1 c2 o rc ts t p R h1 hk ht h2 ih hp
    have hc1 := cstep_clock h1 hk
    obtain ⟨q, g1, g2, g3, g4⟩ := phase_step R h1 hk hp
    obtain ⟨p', k1, k2, k3⟩ := ih g1
    refine ⟨p', k1, k2.trans g2, ?_⟩
    rcases g4 with g4 | ⟨o1, o2, o3, tx, x, o4, o5⟩
    · rcases k3 with k3 | ⟨m1, m2, m3, s, acc, x, m4, m5⟩
      · exact .inl (k3.trans g4)
      · rw [hc1] at m1 m2
        refine .inr ⟨?_, m2, g3.1 m3, s, acc, x, List.mem_cons_of_mem _ m4, m5⟩
        unfold Ongoing at m1 ⊢
        rw [g2, g4] at m1
        exact m1
    · obtain ⟨q', n1, n2, _⟩ := completed_stays (R.step h1) h2 g1
      rw [k1] at n1; cases n1
      obtain ⟨s, acc, ht⟩ := ht tx x o4
      rw [h2.clock, hc1] at n2
      exact .inr ⟨o1, n2 o2, o3, s, acc, x, by rw [ht]; exact List.mem_cons_self, o5⟩
  induction h generalizing p with
  | done c => exact ⟨p, hp, rfl, .inl rfl⟩
  | @own c c1 c2 s acc i rc ts h1 h2 ih =>
    refine join R h1 (by simp) ?_ h2 (fun hq => ih (R.step h1) hq) hp
    rintro tx x hx
    cases hx
    exact ⟨s, acc, rfl⟩
  | @other c c1 c2 o rc ts hk h1 h2 ih =>
    refine join R h1 (fun n => (hk ⟨[], true⟩ (.closeFixedArgs ⟨.key 0, .key 0⟩) n).2) ?_ h2
      (fun hq => ih (R.step h1) hq) hp
    rintro tx x rfl
    exact absurd rfl (hk tx (.deposit x) 0).1

/-- **C63.** Within a transaction the phase of a sale stays the same, with one exception: deposits of that very
transaction may complete an ongoing sale that may end early. So in a pro-rata sale nobody can deposit and claim, or
withdraw and claim, in one transaction. -/
theorem C63_phase {c c' : Chain} (R : TReachable c) {S : List Addr} {ts : List TIx} (h : Executes S c ts c')
    {a : Addr} {p : Presale} (hp : c.w.presales a = some p) :
    ∃ p', c'.w.presales a = some p' ∧ c'.w.clock = c.w.clock ∧
      (((Ongoing p c.w.clock ↔ Ongoing p' c'.w.clock) ∧ (Completed p c.w.clock ↔ Completed p' c'.w.clock) ∧
        (Failed p c.w.clock ↔ Failed p' c'.w.clock)) ∨
       (Ongoing p c.w.clock ∧ Completed p' c'.w.clock ∧ EarlyEndAllowed p ∧ Deposits a ts)) := by
  replace R := (C63_same_states c).1 R
  obtain ⟨p', h1, h2, h3⟩ := phase_exec R h hp
  refine ⟨p', h1, h.clock, ?_⟩
  rcases h3 with h3 | h3
  · left
    obtain ⟨q, g1, g2, g3⟩ := completed_stays R h hp
    rw [h1] at g1; cases g1
    rw [h.clock] at g2 g3 ⊢
    refine ⟨by unfold Ongoing; rw [h2, h3], ⟨g2, fun hc => ?_⟩, ⟨g3, fun hf => ?_⟩⟩
    · have ho : Over p c.w.clock := by
        have := hc.1; unfold Over at this ⊢; rw [h3] at this; exact this
      by_contra hn
      have hf : Failed p c.w.clock := ⟨ho, Nat.lt_of_not_le fun hle => hn ⟨ho, hle⟩⟩
      have := (g3 hf).2
      have := hc.2
      omega
    · have ho : Over p c.w.clock := by
        have := hf.1; unfold Over at this ⊢; rw [h3] at this; exact this
      by_contra hn
      have hc : Completed p c.w.clock := ⟨ho, Nat.le_of_not_lt fun hlt => hn ⟨ho, hlt⟩⟩
      have := (g2 hc).2
      have := hf.2
      omega
  · right
    rw [h.clock]
    exact h3


/-! ### Naming the price and creating the sale in one transaction -/

theorem fixed_mid {S : List Addr} {c c' : Chain} {ts : List TIx} (h : Executes S c ts c') {presale : Addr}
    {v : FixedPriceArgs}
    (hno : ∀ s acc g, TIx.own s acc (.initFixedArgs g) ∈ ts → g.presale ≠ presale)
    (h0 : c.w.fixedArgs (.fixedPriceArgs presale) = none ∨ c.w.fixedArgs (.fixedPriceArgs presale) = some v) :
    c'.w.fixedArgs (.fixedPriceArgs presale) = none ∨ c'.w.fixedArgs (.fixedPriceArgs presale) = some v := by
  have one : ∀ {c c1 : Chain} {o : COp} {rc : Receipt}, cstep c o = .ok (c1, rc) →
      (∀ tx g, o = .op (.ix tx (.initFixedArgs g)) → g.presale ≠ presale) →
      (c.w.fixedArgs (.fixedPriceArgs presale) = none ∨ c.w.fixedArgs (.fixedPriceArgs presale) = some v) →
      (c1.w.fixedArgs (.fixedPriceArgs presale) = none ∨ c1.w.fixedArgs (.fixedPriceArgs presale) = some v) := by
    intro c c1 o rc h hno h0
    rcases (cstep_world h).2 with ⟨op, rfl, hs⟩ | hw
    · rcases h0 with h0 | h0
      · cases h1 : c1.w.fixedArgs (.fixedPriceArgs presale) with
        | none => exact .inl rfl
        | some v' =>
          obtain ⟨tx, x, rfl, _, hk, _⟩ := C49_fixed_created hs h0 h1
          cases hk
          exact absurd rfl (hno tx x rfl)
      · rcases C49_fixed_kept hs h0 with h1 | ⟨h1, _⟩
        · exact .inr h1
        · exact .inl h1
    · rw [hw]; exact h0
  induction h with
  | done c => exact h0
  | own h1 _ ih =>
    refine ih (fun s acc g hg => hno s acc g (List.mem_cons_of_mem _ hg)) (one h1 ?_ h0)
    rintro tx g hg
    cases hg
    exact hno _ _ g List.mem_cons_self
  | other hk h1 _ ih =>
    refine ih (fun s acc g hg => hno s acc g (List.mem_cons_of_mem _ hg)) (one h1 ?_ h0)
    rintro tx g rfl
    exact absurd rfl (hk tx (.initFixedArgs g) 0).1

/-- **C63.** A creator who names the price and creates the fixed-price sale in one transaction gets exactly that
price and withdrawal flag, for good, whatever anybody did before: the transaction fails if somebody else had
created the parameter account (compare C57). -/
theorem C63_price {c c' : Chain} (R : TReachable c) {S : List Addr} {pre mid post : List TIx} {s1 s2 : List Addr}
    {a1 a2 : Bool} {f : InitFixedArgsAcc} {x : InitPresaleAcc}
    (h : Executes S c (pre ++ .own s1 a1 (.initFixedArgs f) :: (mid ++ .own s2 a2 (.initPresale x) :: post)) c')
    (hf : f.presale = x.presaleKey) (hm : x.args.presaleParams.presaleMode = 0)
    (hno : ∀ s acc g, TIx.own s acc (.initFixedArgs g) ∈ mid → g.presale ≠ f.presale) (later : List TOp) :
    ∃ p, (trun c' later).w.presales x.presaleKey = some p ∧
      getPresaleModeHandler p = .ok (.fixedPrice f.qPrice f.disableWithdraw
        x.args.presaleParams.disableEarlierPresaleEndOnceCapReached) := by
  obtain ⟨c1, h1, h2⟩ := h.append
  have R1 := C63_inside R h1
  cases h2 with
  | @own _ c2 _ _ _ _ _ _ h3 h4 =>
    have R2 := R1.step h3
    obtain ⟨c3, h5, h6⟩ := h4.append
    have R3 := C63_inside ((C63_same_states c2).2 R2) h5
    cases h6 with
    | @own _ c4 _ _ _ _ _ _ h7 h8 =>
      have R4 := R3.step h7
      obtain ⟨w2, l2, hs1, _, rfl⟩ := cstep_op.1 h3
      obtain ⟨w4, l4, hs2, _, rfl⟩ := cstep_op.1 h7
      have F := handleInitFixedArgs_iff.1 hs1
      have h9 : w2.fixedArgs (.fixedPriceArgs f.presale) = some
          { disableWithdraw := f.disableWithdraw, qPrice := f.qPrice, owner := f.owner, presale := f.presale } := by
        rw [F.post]; exact upd_self _ _ _
      have h10 := fixed_mid h5 hno (.inr h9)
      obtain ⟨os, h11⟩ : ∃ os, trun c' later = crun { c3 with w := w4, lam := l4 } os := by
        obtain ⟨os1, e1⟩ := h8.crun
        have : ∃ os2, trun c' later = crun c' os2 := by
          clear h h8 e1 hno h1
          induction later using List.reverseRecOn with
          | nil => exact ⟨[], rfl⟩
          | append_singleton later o ih =>
            obtain ⟨os2, e2⟩ := ih
            obtain ⟨os3, e3⟩ := tapply_crun (trun c' later) o
            exact ⟨os2 ++ os3, by rw [trun_snoc, e3, e2, crun_append]⟩
        obtain ⟨os2, e2⟩ := this
        exact ⟨os1 ++ os2, by rw [e2, e1, crun_append]⟩
      obtain ⟨ops, h12⟩ := crun_world { c3 with w := w4, lam := l4 } os
      obtain ⟨p, g1, g2, _, _, g3⟩ := C45_mode_data (C62_refines R3) hs2 ops
      obtain ⟨acc, args, _, g5, g6, g7⟩ := g3 (by omega) (by omega)
      have g8 := ((C62_refines R3).winv.aux.fixed _ _ g5).1
      rw [g6, ← hf] at g8
      rw [g8] at g5
      refine ⟨p, by rw [h11, h12]; exact g1, ?_⟩
      rcases h10 with h10 | h10
      · rw [h10] at g5; cases g5
      · rw [h10] at g5; cases g5; exact g7

/-- **C63.** If the parameter account exists already, the bundle fails and costs nothing. -/
theorem C63_price_blocked {c : Chain} {s : List Addr} {a : Bool} {f : InitFixedArgsAcc} (t : Transaction)
    {rest : List TIx} (ht : t.items = .own s a (.initFixedArgs f) :: rest) {v : FixedPriceArgs}
    (planted : c.w.fixedArgs (.fixedPriceArgs f.presale) = some v) : tapply c (.tx t) = c := by
  rcases C63_all_or_nothing c t with h | h
  · exact h
  · rw [ht] at h
    cases h with
    | own h1 _ =>
      obtain ⟨_, _, hs, _⟩ := cstep_op.1 h1
      have := (handleInitFixedArgs_iff.1 hs).fresh
      rw [planted] at this; cases this


/-! ### Leaving in one transaction -/

theorem cstep_free {c : Chain} {tx : Tx} {i : Ix} {w' : World} {rc : Receipt}
    (h : step c.w (.ix tx i) = .ok (w', rc)) (h1 : rentPayer i = none) (h2 : closing i = none) :
    cstep c (.op (.ix tx i)) = .ok ({ c with w := w' }, rc) := by
  refine cstep_op.2 ⟨w', c.lam, h, ?_, rfl⟩
  simp only [opLamports, lamports, chargeRent, payOut, h1, h2]
  rfl

/-- **C63.** After vesting, one transaction with the buyer's signature claims everything, takes the refund if there
is one to take, and closes the escrow, returning its rent; the outside conditions are those of C26 and C27. -/
theorem C63_windup {c : Chain} (R : TReachable c) {S : List Addr} {x : ClaimAcc} {y : RefundAcc}
    {p : Presale} {e : Escrow} {r : Registry} (hp : c.w.presales x.presale = some p)
    (hk : c.w.escrows.get? x.escrow = some e) (ha : e.presale = x.presale) (ho : x.owner = e.owner)
    (hc : Completed p c.w.clock) (hvest : ((p.vestingStartTime + p.vestDuration : Nat) : Int) ≤ c.w.clock)
    (hr : p.registries[e.registryIndex]? = some r) (hs : Tx.signed ⟨S, true⟩ e.owner = true)
    (hv : x.baseTokenVault = p.baseTokenVault) (hm : x.baseMint = p.baseMint)
    (hpay : Payable c.w.tk ⟨S, true⟩ .transferHookBase p.baseMint p.baseTokenVault x.ownerBaseToken x.tokenProgram
      x.remaining x.slices (entitlement p r e - e.totalClaimedToken))
    (hy : y.presale = x.presale ∧ y.escrow = x.escrow ∧ y.owner = e.owner ∧
      y.quoteTokenVault = p.quoteTokenVault ∧ y.quoteMint = p.quoteMint)
    (hpay' : e.isRemainingQuoteWithdrawn = 0 → p.presaleMode = 1 →
      ∀ w1 rc, step c.w (.ix ⟨S, true⟩ (.claim x)) = .ok (w1, rc) →
      Payable w1.tk ⟨S, true⟩ .transferHookQuote p.quoteMint p.quoteTokenVault y.ownerQuoteToken y.tokenProgram
        y.remaining y.slices (owedRefund p r e)) (rent : Addr) (hrent : rent ≠ x.escrow) :
    ∃ items, (items = [.claim x, .refund y, .closeEscrow ⟨x.presale, x.escrow, e.owner, rent⟩] ∨
        items = [.claim x, .closeEscrow ⟨x.presale, x.escrow, e.owner, rent⟩]) ∧
      let c' := tapply c (.tx ⟨S, items.map (.own [] true)⟩)
      c'.w.escrows.get? x.escrow = none ∧ c'.lam x.escrow = 0 ∧
        c'.lam rent = c.lam rent + c.lam x.escrow := by
  have RC := (C63_same_states c).1 R
  have RW := C62_refines RC
  obtain ⟨w1, rc1, w2, h1, h2, w3, rc3, h3, hgone⟩ :=
    C30_windup_completed RW hp hk ha ho hc hvest hr ⟨hs, hs, hs⟩ hv hm hpay hy hpay' rent hrent
  have e1 := cstep_free h1 rfl rfl
  -- from any list that executes, the claimed facts follow
  have fin : ∀ {c2 : Chain} (_ : CReachable c2) (_ : c2.w = w2) (_ : c2.lam = c.lam) (items : List Ix)
      (_ : ∀ c3, Executes S c2 [.own [] true (.closeEscrow ⟨x.presale, x.escrow, e.owner, rent⟩)] c3 →
        Executes S c (items.map (.own [] true)) c3),
      let c' := tapply c (.tx ⟨S, items.map (.own [] true)⟩)
      c'.w.escrows.get? x.escrow = none ∧ c'.lam x.escrow = 0 ∧
        c'.lam rent = c.lam rent + c.lam x.escrow := by
    intro c2 R2 hw2 hl2 items hex
    rw [← hw2] at h3
    obtain ⟨c3, rc3', h4⟩ := (C62_succeeds_iff R2 ⟨S, true⟩ _).2 ⟨⟨_, _, h3⟩, fun p hp => by cases hp⟩
    obtain ⟨n, _, _, g3, g4, _⟩ := C62_closing_pays R2 h4 rfl
    have hE := hex c3 (.own (rc := rc3') (by rw [List.append_nil]; exact h4) (.done c3))
    obtain ⟨rcs, hx⟩ := exec_iff.2 hE
    have ht : tapply c (.tx ⟨S, items.map (.own [] true)⟩) = c3 := by simp only [tapply, hx]
    obtain ⟨w3', l3, hs3, _, rfl⟩ := cstep_op.1 h4
    rw [h3] at hs3; cases hs3
    rw [ht]
    refine ⟨hgone, g3, ?_⟩
    rw [g4, hl2]
  rcases h2 with ⟨_, _, rc2, h2⟩ | ⟨_, rfl⟩
  · have e2 : cstep { c with w := w1 } (.op (.ix ⟨S, true⟩ (.refund y))) = .ok ({ c with w := w2 }, rc2) :=
      cstep_free (c := { c with w := w1 }) h2 rfl rfl
    refine ⟨_, .inl rfl, fin ((RC.step e1).step e2) rfl rfl _ ?_⟩
    intro c3 hE
    exact .own (by rw [List.append_nil]; exact e1) (.own (by rw [List.append_nil]; exact e2) hE)
  · refine ⟨_, .inr rfl, fin (RC.step e1) rfl rfl _ ?_⟩
    intro c3 hE
    exact .own (by rw [List.append_nil]; exact e1) hE

namespace Ex

/-- The creator names the price and creates the sale in one transaction. -/
def bundle : Transaction :=
  ⟨[creator, baseKey], [.own [] true (.initFixedArgs ⟨creator, creator, sale, 0, 2 * 2 ^ 64⟩),
    .own [] true (.initPresale (initArgs 0 0 0 reg1))]⟩

/-- Somebody else creating the parameter account first, with another price. -/
def planted : Chain :=
  tapply chain0 (.tx ⟨[bob], [.own [] true (.initFixedArgs ⟨bob, bob, sale, 0, 2 ^ 64⟩)]⟩)

def sold (c : Chain) : Bool := has c.w fun _ => true

/-- The bundle works; it fails without a trace once somebody planted a price; so does a transaction whose second
instruction fails (nobody signs for the base key). -/
example : TReachable planted ∧ sold (tapply chain0 (.tx bundle)) = true ∧ sold (tapply planted (.tx bundle)) = false ∧
    (tapply planted (.tx bundle)).lam creator = planted.lam creator ∧
    ((tapply chain0 (.tx { bundle with signers := [creator] })).w.fixedArgs (.fixedPriceArgs sale)).isNone = true :=
  ⟨⟨_, [.tx _], genesis_ok, rfl⟩, by decide +kernel⟩

/-- Claim, refund and close in one transaction. -/
example :
    let c := crun chain0 (all (prorataOps ++ [.tick 2000]))
    let t : Transaction := ⟨[alice], [.own [] true (.claim (claimAcc alice aliceBase)),
      .own [] true (.refund (refundAcc alice aliceQuote)),
      .own [] true (.closeEscrow ⟨sale, escrowOf alice, alice, alice⟩)]⟩
    hasEsc c.w (escrowOf alice) (fun _ => true) = true ∧
    hasEsc (tapply c (.tx t)).w (escrowOf alice) (fun _ => true) = false ∧
    (tapply c (.tx t)).lam alice = 100000000 := by
  decide +kernel


/-- Depositing twice in one transaction: the first deposit fills the cap and ends the sale, so the second fails,
and with it the first. -/
example :
    let c := crun chain0 (all fcfsOps)
    let d : TIx := .own [] true (.deposit (depositAcc bob bobQuote 600))
    has (tapply c (.tx ⟨[bob], [d]⟩)).w (fun p => p.presaleEndTime == 1020 && p.totalDeposit == 1000) = true ∧
    has (tapply c (.tx ⟨[bob], [d, d]⟩)).w (fun p => p.presaleEndTime == 1600 && p.totalDeposit == 900) = true := by
  decide +kernel

end Ex

end Verif
