import Verif.Lemmas.Delay
import Verif.Props.Machine
import Verif.Lemmas.Origin
import Verif.Examples
/-!
# No date is special

C102. The program looks at differences of dates only: whatever can be done at one time can be done in the same way
at any other time, with all dates put off alike.
-/

namespace Verif
open Spec

/-! ## There and back -/

variable {d : Nat}

theorem moved_back (t : Nat) : moved (-(d : Int)) (moved d t) = t := by
  unfold moved; omega

theorem movedDate_back (t : Nat) : movedDate (-(d : Int)) (movedDate d t) = t := by
  unfold movedDate moved
  by_cases h : t = 0
  · rw [if_pos h, if_pos rfl, h]
  · rw [if_neg h, if_neg (by omega)]; omega

theorem Presale.delay_back (p : Presale) : (p.delay d).delay (-(d : Int)) = p := by
  cases p
  simp only [Presale.delay, moved_back, movedDate_back]

theorem Escrow.delay_back (e : Escrow) : (e.delay d).delay (-(d : Int)) = e := by
  cases e
  simp only [Escrow.delay, moved_back]

theorem World.delay_back (w : World) : (w.delay d).delay (-(d : Int)) = w := by
  cases w with
  | mk c ps es mr op md fa k =>
    simp only [World.delay, Option.map_map, List.map_map, World.mk.injEq, true_and, and_true]
    refine ⟨by omega, ?_, ?_⟩
    · funext a
      rw [show Presale.delay (-(d : Int)) ∘ Presale.delay d = id from funext Presale.delay_back, Option.map_id]; rfl
    · rw [show ((fun y => (y.1, y.2.delay (-(d : Int)))) ∘ fun y => (y.1, y.2.delay d) : Addr × Escrow → _) = id from
        funext fun y => by show (y.1, _) = y; rw [Escrow.delay_back], List.map_id]

theorem Ix.delay_back (i : Ix) : (i.delay d).delay (-(d : Int)) = i := by
  cases i <;> try rfl
  rename_i a
  obtain ⟨_, _, _, _, _, _, _, _, x, _, _⟩ := a
  cases x
  simp only [Ix.delay, InitPresaleAcc.delay, InitializePresaleArgs.delay, moved_back, movedDate_back]

/-! ## Dates of possible sales -/

/-- The clock runs and no sale ends at the date that stands for none. -/
structure Dated (w : World) : Prop where
  clock : 0 < w.clock
  ends : ∀ a p, w.presales a = some p → 0 < p.presaleEndTime

theorem Effect.dated {w w' : World} {op : Op} (E : Effect w op w') (D : Dated w) : Dated w' := by
  cases E with
  | quiet h1 _ h3 => exact ⟨by have := D.clock; omega, fun a p h => D.ends a p (h1 ▸ h)⟩
  | @create tx x q h1 h2 h3 h4 h5 h6 =>
    refine ⟨h6 ▸ D.clock, fun a p h => ?_⟩
    rw [h4] at h
    by_cases e : a = x.presaleKey
    · subst e
      rw [upd_self] at h; cases h
      have := h3.duration.1; omega
    · rw [upd_other _ _ e] at h; exact D.ends a p h
  | @act tx i b q q' es' h1 h2 h3 h4 h5 h6 =>
    refine ⟨h6 ▸ D.clock, fun a p h => ?_⟩
    rw [h4] at h
    by_cases e : a = b
    · subst e
      rw [upd_self] at h; cases h
      have hc := D.clock
      rcases h3.dates with s | ⟨_, _, _, _, s, _⟩
      · rw [s.fin]; exact D.ends _ _ h2
      · omega
    · rw [upd_other _ _ e] at h; exact D.ends a p h

theorem dated_run {w0 : World} (G : Genesis w0) (h0 : 0 < w0.clock) (ops : List Op) : Dated (run w0 ops) := by
  induction ops using List.reverseRecOn with
  | nil => exact ⟨h0, fun a p h => by rw [show run w0 [] = w0 from rfl, G.presales a] at h; cases h⟩
  | append_singleton ops op ih =>
    rw [run_snoc]
    have R : Reachable (run w0 ops) := ⟨w0, ops, G, rfl⟩
    rcases apply_cases (run w0 ops) op with h | ⟨rc, h⟩
    · rw [h]; exact ih
    · exact (step_effect R.winv h).dated ih

theorem Dated.movable {w : World} (R : Reachable w) (D : Dated w) {a : Addr} {p : Presale}
    (h : w.presales a = some p) : Movable d p := by
  have S := (R.winv.core.sale a p h).pinv.sched
  have := D.ends a p h
  have := S.timing
  exact ⟨by omega, by omega, by omega, by omega, by omega⟩

theorem Movable.back {p : Presale} (M : Movable d p) : Movable (-(d : Int)) (p.delay d) := by
  obtain ⟨h1, h2, h3, h4, h5⟩ := M
  constructor
  all_goals simp only [Presale.delay, movedDate, moved]
  · omega
  · omega
  · split <;> omega
  · split <;> omega
  · split <;> omega

/-! ## Steps -/

/-- Steps of the world outside the program do not look at dates. -/
theorem step_delay_env {w : World} {op : Op} (h : ∀ tx i, op ≠ .ix tx i) (d : Int) (w' : World) (rc : Receipt) :
    step w op = .ok (w', rc) → step (w.delay d) (op.delay d) = .ok (w'.delay d, rc) := by
  intro g
  cases op with
  | ix tx i => exact absurd rfl (h tx i)
  | tick n =>
    cases g
    simp only [Op.delay, step, World.delay]
    rw [show w.clock + d + (n : Int) = w.clock + n + d by omega]
  | setTok a t =>
    simp only [step, bind_eq_ok, require_eq_ok, pure_eq_ok, Prod.mk.injEq] at g
    obtain ⟨_, h1, _, h2, rfl, rfl⟩ := g
    simp only [Op.delay, step, bind_eq_ok, require_eq_ok, pure_eq_ok, Prod.mk.injEq]
    exact ⟨(), h1, (), h2, rfl, trivial⟩
  | donate a n =>
    simp only [step, bind_eq_ok, require_eq_ok, pure_eq_ok, load_eq_ok, Prod.mk.injEq] at g
    obtain ⟨t, h1, _, h2, rfl, rfl⟩ := g
    simp only [Op.delay, step, bind_eq_ok, require_eq_ok, pure_eq_ok, load_eq_ok, Prod.mk.injEq]
    exact ⟨t, h1, (), h2, rfl, trivial⟩
  | freezeVault a b =>
    simp only [step, bind_eq_ok, pure_eq_ok, load_eq_ok, Prod.mk.injEq] at g
    obtain ⟨t, h1, rfl, rfl⟩ := g
    simp only [Op.delay, step, bind_eq_ok, pure_eq_ok, load_eq_ok, Prod.mk.injEq]
    exact ⟨t, h1, rfl, trivial⟩
  | setMint a m =>
    simp only [step, bind_eq_ok, require_eq_ok, pure_eq_ok, Prod.mk.injEq] at g
    obtain ⟨_, h1, _, h2, rfl, rfl⟩ := g
    simp only [Op.delay, step, bind_eq_ok, require_eq_ok, pure_eq_ok, Prod.mk.injEq]
    exact ⟨(), h1, (), h2, rfl, trivial⟩

theorem Op.delay_back (op : Op) : (op.delay d).delay (-(d : Int)) = op := by
  cases op <;> try rfl
  simp only [Op.delay, Ix.delay_back]

theorem Op.delay_env {op : Op} (h : ∀ tx i, op ≠ .ix tx i) (d : Int) : ∀ tx i, op.delay d ≠ .ix tx i := by
  cases op with
  | ix tx i => exact absurd rfl (h tx i)
  | _ => intro tx i g; cases g

theorem step_delay {w : World} (R : Reachable w) (D : Dated w) (R' : Reachable (w.delay d))
    (room : w.clock + d < 2 ^ 62) (op : Op) (w' : World) :
    (∃ rc, step w op = .ok (w', rc)) ↔ ∃ rc, step (w.delay d) (op.delay d) = .ok (w'.delay d, rc) := by
  have hc := D.clock
  by_cases h : ∀ tx i, op ≠ .ix tx i
  · constructor
    · rintro ⟨rc, g⟩; exact ⟨rc, step_delay_env h d w' rc g⟩
    · rintro ⟨rc, g⟩
      have := step_delay_env (Op.delay_env h d) (-(d : Int)) _ _ g
      rw [World.delay_back, World.delay_back, Op.delay_back] at this
      exact ⟨rc, this⟩
  · simp only [ne_eq, not_forall, not_not] at h
    obtain ⟨tx, i, rfl⟩ := h
    show _ ↔ ∃ rc, step (w.delay d) (.ix tx (i.delay d)) = _
    rw [C72_does_iff R, C72_does_iff R']
    constructor
    · exact delay_does (fun a p g => D.movable R g) hc (by omega) room
    · intro g
      have hw : (w.delay d).clock = w.clock + d := rfl
      have := delay_does (d := -(d : Int)) (fun a p g => ?_) (by omega) (by omega) (by omega) g
      · rw [World.delay_back, World.delay_back, Ix.delay_back] at this
        exact this
      · have e : (w.presales a).map (Presale.delay d) = some p := g
        rw [Option.map_eq_some_iff] at e
        obtain ⟨q, hq, rfl⟩ := e
        exact (D.movable R hq).back

theorem step_delay_any {w : World} (R : Reachable w) (D : Dated w) (R' : Reachable (w.delay d))
    (room : w.clock + d < 2 ^ 62) (op : Op) :
    (∃ w' rc, step w op = .ok (w', rc)) ↔ ∃ w' rc, step (w.delay d) (op.delay d) = .ok (w', rc) := by
  have hc := D.clock
  constructor
  · rintro ⟨w', h⟩
    exact ⟨_, (step_delay R D R' room op w').1 h⟩
  · rintro ⟨w', rc, g⟩
    by_cases h : ∀ tx i, op ≠ .ix tx i
    · have := step_delay_env (Op.delay_env h d) (-(d : Int)) _ _ g
      rw [World.delay_back, Op.delay_back] at this
      exact ⟨_, rc, this⟩
    · simp only [ne_eq, not_forall, not_not] at h
      obtain ⟨tx, i, rfl⟩ := h
      have g := (C72_does_iff R' tx (i.delay d) w').1 ⟨rc, g⟩
      have hw : (w.delay d).clock = w.clock + d := rfl
      have := delay_does (d := -(d : Int)) (fun a p g => ?_) (by omega) (by omega) (by omega) g
      · rw [World.delay_back, Ix.delay_back] at this
        exact ⟨_, (C72_does_iff R tx i _).2 this⟩
      · have e : (w.presales a).map (Presale.delay d) = some p := g
        rw [Option.map_eq_some_iff] at e
        obtain ⟨q, hq, rfl⟩ := e
        exact (D.movable R hq).back

theorem genesis_delay {w0 : World} (G : Genesis w0) (d : Int) : Genesis (w0.delay d) where
  presales a := by show (w0.presales a).map _ = none; rw [G.presales a]; rfl
  escrows := by show w0.escrows.map _ = []; rw [G.escrows]; rfl
  merkleRoots := G.merkleRoots
  operators := G.operators
  metadata := G.metadata
  fixedArgs := G.fixedArgs
  vaults := G.vaults
  amounts := G.amounts
  mints := G.mints

/-- **C102.** A history put off by any number of seconds takes the same course: it leads to the same ledger, with all
dates put off. -/
theorem C102_history {w0 : World} (G : Genesis w0) (h0 : 0 < w0.clock) (ops : List Op) (d : Nat)
    (room : (run w0 ops).clock + d < 2 ^ 62) :
    run (w0.delay d) (ops.map (Op.delay d)) = (run w0 ops).delay d := by
  induction ops using List.reverseRecOn with
  | nil => rfl
  | append_singleton ops op ih =>
    have R : Reachable (run w0 ops) := ⟨w0, ops, G, rfl⟩
    have hle := run_clock R.winv [op]
    rw [← run_append] at hle
    have ih := ih (by omega)
    have R' : Reachable ((run w0 ops).delay d) := ⟨w0.delay d, _, genesis_delay G d, ih.symm⟩
    have D := dated_run G h0 ops
    rw [List.map_append, run_append, ih, run_snoc]
    show apply _ _ = _
    cases h : step (run w0 ops) op with
    | ok x =>
      obtain ⟨w', rc⟩ := x
      obtain ⟨rc', h'⟩ := (step_delay R D R' (by omega) op w').1 ⟨rc, h⟩
      rw [apply_ok h, apply_ok h']
    | error e =>
      cases h' : step ((run w0 ops).delay d) (op.delay d) with
      | ok x =>
        obtain ⟨w', rc, g⟩ := (step_delay_any R D R' (by omega) op).2 ⟨x.1, x.2, h'⟩
        rw [h] at g; cases g
      | error e' => simp only [apply, h, h']

/-- **C102.** An operation succeeds exactly if it succeeds later, all dates put off, and then with the same effect. -/
theorem C102_step {w0 : World} (G : Genesis w0) (h0 : 0 < w0.clock) (ops : List Op) (d : Nat)
    (room : (run w0 ops).clock + d < 2 ^ 62) (op : Op) (w' : World) :
    (∃ rc, step (run w0 ops) op = .ok (w', rc)) ↔
      ∃ rc, step ((run w0 ops).delay d) (op.delay d) = .ok (w'.delay d, rc) :=
  step_delay ⟨w0, ops, G, rfl⟩ (dated_run G h0 ops)
    ⟨w0.delay d, _, genesis_delay G d, (C102_history G h0 ops d room).symm⟩ room op w'

/-- **C102.** What is refused is refused at any later time. -/
theorem C102_refused {w0 : World} (G : Genesis w0) (h0 : 0 < w0.clock) (ops : List Op) (d : Nat)
    (room : (run w0 ops).clock + d < 2 ^ 62) (op : Op) :
    (∃ e, step (run w0 ops) op = .error e) ↔ ∃ e, step ((run w0 ops).delay d) (op.delay d) = .error e := by
  have key := step_delay_any ⟨w0, ops, G, rfl⟩ (dated_run G h0 ops)
    ⟨w0.delay d, _, genesis_delay G d, (C102_history G h0 ops d room).symm⟩ room op
  constructor
  · rintro ⟨e, h⟩
    cases h' : step ((run w0 ops).delay d) (op.delay d) with
    | ok x => obtain ⟨_, _, g⟩ := key.2 ⟨x.1, x.2, h'⟩; rw [h] at g; cases g
    | error e' => exact ⟨e', rfl⟩
  · rintro ⟨e, h⟩
    cases h' : step (run w0 ops) op with
    | ok x => obtain ⟨_, _, g⟩ := key.1 ⟨x.1, x.2, h'⟩; rw [h] at g; cases g
    | error e' => exact ⟨e', rfl⟩

namespace Ex

/-- Thirty years. -/
def years : Nat := 946080000

/-- A vested sale with a claim, thirty years later: the theorem applies, tokens are claimed in both histories, and the
delayed one really records later dates. -/
example : run (genesis.delay years) ((prorataOps ++ [.tick 1180, claim alice aliceBase]).map (Op.delay years)) =
      (run genesis (prorataOps ++ [.tick 1180, claim alice aliceBase])).delay years ∧
    has (run (genesis.delay years) ((prorataOps ++ [.tick 1180, claim alice aliceBase]).map (Op.delay years)))
      (fun p => decide (0 < p.totalClaimedToken ∧ years < p.presaleStartTime ∧ years < p.vestingStartTime)) = true ∧
    has (run genesis (prorataOps ++ [.tick 1180, claim alice aliceBase]))
      (fun p => decide (0 < p.totalClaimedToken ∧ p.presaleStartTime < years)) = true :=
  ⟨C102_history genesis_ok (by decide +kernel) _ years (by decide +kernel), by decide +kernel, by decide +kernel⟩

/-- `C102_refused` applies: the claim is early at both times. -/
example : ∃ e, step ((run genesis prorataOps).delay years) ((claim alice aliceBase).delay years) = .error e :=
  (C102_refused genesis_ok (by decide +kernel) prorataOps years (by decide +kernel) _).1
    (by
      cases h : step (run genesis prorataOps) (claim alice aliceBase) with
      | error e => exact ⟨e, rfl⟩
      | ok x =>
        have : (step (run genesis prorataOps) (claim alice aliceBase)).toOption.isSome = false := by decide +kernel
        rw [h] at this; cases this)

end Ex

end Verif
