import Verif.Lemmas.Rename
import Verif.Props.Machine
import Mathlib.Logic.Equiv.Basic
/-!
# No key is special

C95. The program treats all keys alike: under other names everything happens in the same way, and people the ledger
does not tell apart have the same powers. There is no administrator key, no privileged buyer and no favoured mint.
-/

namespace Verif
open Spec

variable {s : Equiv.Perm Nat}

/-- **C95.** Under other names a possible ledger is a possible ledger. -/
theorem C95_reachable (s : Equiv.Perm Nat) {w : World} (R : Reachable w) : Reachable (w.ren s) :=
  (C72_reachable_iff _).2 (ren_arises ((C72_reachable_iff _).1 R))

theorem step_ren {w w' : World} {op : Op} {rc : Receipt} (R : Reachable w) (h : step w op = .ok (w', rc)) :
    ∃ rc', step (w.ren s) (op.ren s) = .ok (w'.ren s, rc') := by
  cases op with
  | tick n => cases h; exact ⟨_, rfl⟩
  | setTok a t =>
    simp only [step, bind_eq_ok, require_eq_ok, pure_eq_ok, Prod.mk.injEq] at h
    obtain ⟨_, h1, _, h2, rfl, _⟩ := h
    refine ⟨noReceipt, ?_⟩
    simp only [Op.ren, step, bind_eq_ok, require_eq_ok, pure_eq_ok, Prod.mk.injEq]
    refine ⟨(), by rw [Addr.ren_isVault]; exact h1, (), ?_, ?_, trivial⟩
    · intro x hx
      cases t with
      | none => cases hx
      | some y => cases hx; exact h2 y rfl
    · simp only [World.ren, Tokens.ren, renTable_upd]
  | donate a n =>
    simp only [step, bind_eq_ok, require_eq_ok, pure_eq_ok, load_eq_ok, Prod.mk.injEq] at h
    obtain ⟨t, h1, _, h2, rfl, _⟩ := h
    refine ⟨noReceipt, ?_⟩
    simp only [Op.ren, step, bind_eq_ok, require_eq_ok, pure_eq_ok, load_eq_ok, Prod.mk.injEq]
    refine ⟨t.ren s, ren_table h1, (), h2, ?_, trivial⟩
    simp only [World.ren, Tokens.ren, renTable_upd]
    rfl
  | freezeVault a b =>
    simp only [step, bind_eq_ok, pure_eq_ok, load_eq_ok, Prod.mk.injEq] at h
    obtain ⟨t, h1, rfl, _⟩ := h
    refine ⟨noReceipt, ?_⟩
    simp only [Op.ren, step, bind_eq_ok, pure_eq_ok, load_eq_ok, Prod.mk.injEq]
    refine ⟨t.ren s, ren_table h1, ?_, trivial⟩
    simp only [World.ren, Tokens.ren, renTable_upd]
    rfl
  | setMint a m =>
    simp only [step, bind_eq_ok, require_eq_ok, pure_eq_ok, Prod.mk.injEq] at h
    obtain ⟨_, h1, _, h2, rfl, _⟩ := h
    refine ⟨noReceipt, ?_⟩
    simp only [Op.ren, step, bind_eq_ok, require_eq_ok, pure_eq_ok, Prod.mk.injEq]
    refine ⟨(), h1, (), ?_, ?_, trivial⟩
    · intro old ho had
      obtain ⟨u, hu, rfl⟩ := ren_table_some ho
      rw [Addr.ren_symm] at hu
      exact h2 u hu had
    · simp only [World.ren, Tokens.ren, renTable_upd]
      rfl
  | ix tx i =>
    exact (C72_does_iff (C95_reachable s R) (tx.ren s) (i.ren s) (w'.ren s)).2
      (ren_does ((C72_does_iff R tx i w').1 ⟨rc, h⟩))

/-- **C95.** In every reachable ledger an operation succeeds exactly if it succeeds under other names, and its effect
is then the same under those names. -/
theorem C95_step (s : Equiv.Perm Nat) {w : World} (R : Reachable w) (op : Op) (w' : World) :
    (∃ rc, step w op = .ok (w', rc)) ↔ ∃ rc, step (w.ren s) (op.ren s) = .ok (w'.ren s, rc) := by
  constructor
  · rintro ⟨rc, h⟩
    exact step_ren R h
  · rintro ⟨rc, h⟩
    have := step_ren (s := s.symm) (C95_reachable s R) h
    rw [World.ren_symm, World.ren_symm, Op.ren_symm] at this
    exact this

/-- **C95.** What is refused is refused under any other names. -/
theorem C95_refused (s : Equiv.Perm Nat) {w : World} (R : Reachable w) (op : Op) :
    (∃ e, step w op = .error e) ↔ ∃ e, step (w.ren s) (op.ren s) = .error e := by
  constructor
  · rintro ⟨e, h⟩
    cases hs : step (w.ren s) (op.ren s) with
    | error e' => exact ⟨e', rfl⟩
    | ok x =>
      obtain ⟨rc, h'⟩ := step_ren (s := s.symm) (C95_reachable s R) (w' := x.1) (rc := x.2) hs
      rw [World.ren_symm, Op.ren_symm, h] at h'
      cases h'
  · rintro ⟨e, h⟩
    cases hs : step w op with
    | error e' => exact ⟨e', rfl⟩
    | ok x =>
      obtain ⟨rc, h'⟩ := step_ren (s := s) R (w' := x.1) (rc := x.2) hs
      rw [h] at h'
      cases h'

theorem apply_ren {w : World} (R : Reachable w) (op : Op) : apply (w.ren s) (op.ren s) = (apply w op).ren s := by
  unfold apply
  cases hs : step w op with
  | error e =>
    obtain ⟨e', h⟩ := (C95_refused s R op).1 ⟨e, hs⟩
    rw [h]
  | ok x =>
    obtain ⟨rc, h⟩ := step_ren (s := s) R (w' := x.1) (rc := x.2) hs
    rw [h]

/-- **C95.** A whole history under other names, from any reachable ledger, ends in the same ledger under those
names. -/
theorem C95_history (s : Equiv.Perm Nat) {w : World} (R : Reachable w) (ops : List Op) :
    run (w.ren s) (ops.map (Op.ren s)) = (run w ops).ren s := by
  induction ops generalizing w with
  | nil => rfl
  | cons op ops ih =>
    rw [List.map_cons, Verif.run, Verif.run, apply_ren R]
    exact ih (R.run [op])

/-! ## People the ledger does not tell apart -/

theorem step_bytes {E : Env} {w w' : World} {op : Op} {rc : Receipt} (R : Reachable w)
    (R' : Reachable { w with env := E }) (hb : op.readsBytes = false) (h : step w op = .ok (w', rc)) :
    ∃ rc', step { w with env := E } op = .ok ({ w' with env := E }, rc') := by
  cases op with
  | tick n => cases h; exact ⟨_, rfl⟩
  | setTok a t =>
    simp only [step, bind_eq_ok, require_eq_ok, pure_eq_ok, Prod.mk.injEq] at h ⊢
    obtain ⟨_, h1, _, h2, rfl, _⟩ := h
    exact ⟨_, (), h1, (), h2, rfl, rfl⟩
  | donate a n =>
    simp only [step, bind_eq_ok, require_eq_ok, pure_eq_ok, load_eq_ok, Prod.mk.injEq] at h ⊢
    obtain ⟨t, h1, _, h2, rfl, _⟩ := h
    exact ⟨_, t, h1, (), h2, rfl, rfl⟩
  | freezeVault a b =>
    simp only [step, bind_eq_ok, pure_eq_ok, load_eq_ok, Prod.mk.injEq] at h ⊢
    obtain ⟨t, h1, rfl, _⟩ := h
    exact ⟨_, t, h1, rfl, rfl⟩
  | setMint a m =>
    simp only [step, bind_eq_ok, require_eq_ok, pure_eq_ok, Prod.mk.injEq] at h ⊢
    obtain ⟨_, h1, _, h2, rfl, _⟩ := h
    exact ⟨_, (), h1, (), h2, rfl, rfl⟩
  | ix tx i => exact (C72_does_iff R' tx i _).2 (env_does hb ((C72_does_iff R tx i w').1 ⟨rc, h⟩))

theorem readsBytes_ren (op : Op) : (op.ren s).readsBytes = op.readsBytes := by
  cases op with
  | ix tx i => cases i <;> rfl
  | _ => rfl

theorem LooksSame.symm {w : World} (L : LooksSame s w) : LooksSame s.symm w := by
  unfold LooksSame at *
  have h : (w.ren s).ren s.symm = w := World.ren_symm s w
  rw [L] at h
  have e : ∀ E : Env, World.ren s.symm { w with env := E } =
      { World.ren s.symm w with env := (World.ren s.symm { w with env := E }).env } := fun _ => rfl
  rw [e] at h
  have h' := congrArg (fun x : World => { x with env := (World.ren s.symm w).env }) h
  exact h'

theorem same_forward {w w' : World} (R : Reachable w) (L : LooksSame s w) {op : Op} (hb : op.readsBytes = false)
    {rc : Receipt} (h : step w op = .ok (w', rc)) :
    ∃ rc', step w (op.ren s) = .ok ({ w'.ren s with env := w.env }, rc') := by
  obtain ⟨rc1, h1⟩ := step_ren (s := s) R h
  have R1 := C95_reachable s R
  have back : { w.ren s with env := w.env } = w := by rw [L]
  have := step_bytes (E := w.env) R1 (by rw [back]; exact R) (by rw [readsBytes_ren]; exact hb) h1
  rw [back] at this
  exact this

/-- **C95.** People the ledger does not tell apart have the same powers: whatever one of them can do (other than
entering by a proof about the bytes of their key), any other can do in their place, with the same effect for them. -/
theorem C95_strangers {w : World} (R : Reachable w) (L : LooksSame s w) {op : Op} (hb : op.readsBytes = false) :
    ((∃ x, step w op = .ok x) ↔ ∃ x, step w (op.ren s) = .ok x) ∧
    ∀ x y, step w op = .ok x → step w (op.ren s) = .ok y → y.1 = { x.1.ren s with env := w.env } := by
  refine ⟨⟨?_, ?_⟩, ?_⟩
  · rintro ⟨⟨w', rc⟩, h⟩
    obtain ⟨rc', h'⟩ := same_forward R L hb h
    exact ⟨_, h'⟩
  · rintro ⟨⟨w', rc⟩, h⟩
    obtain ⟨rc', h'⟩ := same_forward R L.symm (by rw [readsBytes_ren]; exact hb) h
    rw [Op.ren_symm] at h'
    exact ⟨_, h'⟩
  · rintro ⟨w1, r1⟩ ⟨w2, r2⟩ h1 h2
    obtain ⟨rc', h'⟩ := same_forward R L hb h1
    rw [h'] at h2
    cases h2
    rfl

/-- **C95.** People stay indistinguishable as long as nothing is done that mentions them. -/
theorem C95_stay_strangers {w : World} (R : Reachable w) (L : LooksSame s w) {ops : List Op}
    (fixed : ∀ op ∈ ops, op.ren s = op) (hb : ∀ op ∈ ops, op.readsBytes = false) : LooksSame s (run w ops) := by
  induction ops generalizing w with
  | nil => exact L
  | cons op ops ih =>
    rw [Verif.run]
    refine ih (R.run [op]) ?_ (fun o ho => fixed o (.tail _ ho)) (fun o ho => hb o (.tail _ ho))
    unfold apply
    cases hs : step w op with
    | error e => exact L
    | ok x =>
      obtain ⟨w', rc⟩ := x
      obtain ⟨rc', h'⟩ := same_forward R L (hb op (.head _)) hs
      rw [fixed op (.head _), hs] at h'
      have e : w' = { w'.ren s with env := w.env } := congrArg Prod.fst (Except.ok.inj h')
      show w'.ren s = { w' with env := (w'.ren s).env }
      exact (congrArg (fun x : World => { x with env := (w'.ren s).env }) e).symm

namespace Ex

theorem ren_eq_iff {a b : Addr} : a.ren s.symm = b ↔ a = b.ren s := by
  constructor
  · rintro rfl; exact (Addr.symm_ren s a).symm
  · rintro rfl; exact Addr.ren_symm s b

/-- Alice and Bob trade places, with their token accounts. -/
def aliceBob : Equiv.Perm Nat := (Equiv.swap 3 4).trans ((Equiv.swap 22 23).trans (Equiv.swap 24 25))

/-- Two people who do not appear in the examples at all. -/
def nobodies : Equiv.Perm Nat := Equiv.swap 70 80

theorem genesis_nobodies : LooksSame nobodies genesis := by
  have h : ∀ k ∈ [creatorBase, creatorQuote, aliceQuote, bobQuote, aliceBase, bobBase, bm, qm], k.ren nobodies = k := by
    decide +kernel
  unfold LooksSame World.ren Tokens.ren
  congr 1
  congr 1
  · funext a
    simp only [renTable, genesis, genesisToks, ren_eq_iff]
    rw [h creatorBase (by simp), h creatorQuote (by simp), h aliceQuote (by simp), h bobQuote (by simp),
      h aliceBase (by simp), h bobBase (by simp)]
    repeat' split
    all_goals rfl
  · funext a
    simp only [renTable, genesis, genesisMints, ren_eq_iff]
    rw [h bm (by simp), h qm (by simp)]
    repeat' split
    all_goals rfl

/-- At the beginning Alice and Bob are alike: each has as much as the other. -/
theorem genesis_aliceBob : LooksSame aliceBob genesis := by
  have h : ∀ k ∈ [(creatorBase, creatorBase), (creatorQuote, creatorQuote), (aliceQuote, bobQuote),
      (bobQuote, aliceQuote), (aliceBase, bobBase), (bobBase, aliceBase), (bm, bm), (qm, qm)],
      k.1.ren aliceBob = k.2 := by
    decide +kernel
  unfold LooksSame World.ren Tokens.ren
  congr 1
  congr 1
  · funext a
    simp only [renTable, genesis, genesisToks, ren_eq_iff]
    rw [h (creatorBase, creatorBase) (by simp), h (creatorQuote, creatorQuote) (by simp),
      h (aliceQuote, bobQuote) (by simp), h (bobQuote, aliceQuote) (by simp), h (aliceBase, bobBase) (by simp),
      h (bobBase, aliceBase) (by simp)]
    by_cases h1 : a = creatorBase
    · subst h1; rfl
    by_cases h2 : a = creatorQuote
    · subst h2; rfl
    by_cases h3 : a = aliceQuote
    · subst h3; rfl
    by_cases h4 : a = bobQuote
    · subst h4; rfl
    by_cases h5 : a = aliceBase
    · subst h5; rfl
    by_cases h6 : a = bobBase
    · subst h6; rfl
    simp only [if_neg h1, if_neg h2, if_neg h3, if_neg h4, if_neg h5, if_neg h6, Option.map_none]
  · funext a
    simp only [renTable, genesis, genesisMints, ren_eq_iff]
    rw [h (bm, bm) (by simp), h (qm, qm) (by simp)]
    repeat' split
    all_goals rfl

theorem reachGenesis95 : Reachable genesis := ⟨genesis, [], genesis_ok, rfl⟩

/-- C95_history: the sale with Alice's and Bob's parts exchanged is the same sale with their names exchanged; in
it Bob's accounts are where Alice's were, and after it Bob can claim. -/
example : run (genesis.ren aliceBob) (prorataOps.map (Op.ren aliceBob)) = prorataOpen.ren aliceBob ∧
    (prorataOpen.escrows.get? (.escrow sale alice 0)).map (·.totalDeposit) ≠
      (prorataOpen.escrows.get? (.escrow sale bob 0)).map (·.totalDeposit) ∧
    ((prorataOpen.ren aliceBob).escrows.get? (.escrow sale bob 0)).map (·.totalDeposit) =
      (prorataOpen.escrows.get? (.escrow sale alice 0)).map (·.totalDeposit) ∧
    works (prorataVested.ren aliceBob) (claim bob bobBase) = true ∧ Op.ren aliceBob (claim alice aliceBase) = claim bob bobBase :=
  ⟨C95_history aliceBob reachGenesis95 prorataOps, by decide +kernel, by decide +kernel, by decide +kernel, rfl⟩

/-- C95_strangers and C95_stay_strangers: after the creation of the sale Alice and Bob are still alike, and so are
two nobodies after the whole sale. Alice can enter, and so Bob can; a nobody cannot withdraw the raise, nor can the
other; the creator is not a nobody. -/
example : LooksSame aliceBob (run genesis [init 1 0 0 reg1, .tick 10]) ∧
    works (run genesis [init 1 0 0 reg1, .tick 10]) (open' alice) = true ∧
    works (run genesis [init 1 0 0 reg1, .tick 10]) (Op.ren aliceBob (open' alice)) = true ∧
    LooksSame nobodies prorataVested ∧
    works prorataVested (.ix (tx [.key 70]) (.createOperator { operatorOwner := .key 70, creator := .key 70 })) = true ∧
    works prorataVested (.ix (tx [.key 80]) (.createOperator { operatorOwner := .key 80, creator := .key 80 })) = true ∧
    works prorataVested (creatorWithdraw creatorWithdrawAcc) = true ∧
    works prorataVested (.ix (tx [.key 70]) (.creatorWithdraw { creatorWithdrawAcc with owner := .key 70 })) = false := by
  refine ⟨C95_stay_strangers reachGenesis95 genesis_aliceBob ?_ (by decide +kernel), by decide +kernel, by decide +kernel,
    C95_stay_strangers reachGenesis95 genesis_nobodies ?_ (by decide +kernel), by decide +kernel, by decide +kernel,
    by decide +kernel, by decide +kernel⟩
  · intro op ho
    simp only [List.mem_cons, List.not_mem_nil, or_false] at ho
    rcases ho with rfl | rfl <;> rfl
  · intro op ho
    simp only [prorataOps, List.mem_append, List.mem_cons, List.not_mem_nil, or_false] at ho
    rcases ho with (rfl | rfl | rfl | rfl | rfl | rfl | rfl) | rfl <;> rfl

end Ex

end Verif
