import Verif.Lemmas.Lamports
import Verif.Lemmas.Reach
import Verif.Examples
import Mathlib.Algebra.BigOperators.Group.Finset.Basic
/-!
# Rent and lamports (C62)
-/

namespace Verif
open Spec

/-! ## Specification -/

/-- Finitely many balances change and their total does not. -/
def Spec.Conserved (l l' : Addr → Nat) : Prop :=
  ∃ S : Finset Addr, (∀ a, a ∉ S → l' a = l a) ∧ ∑ a ∈ S, l' a = ∑ a ∈ S, l a

/-- The account at `a` disappears. -/
def Spec.Gone (c c' : Chain) (a : Addr) (n : Nat) : Prop :=
  accountSize c.rent c.w a = some n ∧ accountSize c'.rent c'.w a = none

/-- An account of size `n` appears at `a`. -/
def Spec.Born (c c' : Chain) (a : Addr) (n : Nat) : Prop :=
  accountSize c.rent c.w a = none ∧ accountSize c'.rent c'.w a = some n

/-- How an instruction may move lamports. -/
structure Spec.LamportRules (c c' : Chain) (tx : Tx) (i : Ix) : Prop where
  /-- a new account ends up exactly rent-exempt, unless somebody had sent it more -/
  born : ∀ a n, Born c c' a n → c'.lam a = max (c.lam a) (c.rent.minimum n)
  /-- a closed account is emptied -/
  gone : ∀ a n, Gone c c' a n → c'.lam a = 0
  /-- apart from a closed account, only the payer of the instruction loses lamports, having signed -/
  loss : ∀ a, c'.lam a < c.lam a → (∃ n, Gone c c' a n) ∨ (rentPayer i = some a ∧ tx.signed a = true)
  /-- apart from new accounts, only the receiver named by the instruction gains, and all of the closed balance -/
  gain : ∀ a, c.lam a < c'.lam a → (∃ n, Born c c' a n) ∨
    (∃ b n, Gone c c' b n ∧ closing i = some (b, a) ∧ c'.lam a = c.lam a + c.lam b)
  /-- no lamport is created or destroyed -/
  total : Conserved c.lam c'.lam
  /-- if no account appears or disappears, nothing moves -/
  quiet : (∀ a, accountSize c'.rent c'.w a = accountSize c.rent c.w a) → c'.lam = c.lam

/-! ## Lemmas -/

theorem Spec.Conserved.superset {l l' : Addr → Nat} {S T : Finset Addr} (hs : ∀ a, a ∉ S → l' a = l a)
    (he : ∑ a ∈ S, l' a = ∑ a ∈ S, l a) (h : S ⊆ T) : ∑ a ∈ T, l' a = ∑ a ∈ T, l a := by
  rw [← Finset.sum_sdiff h, ← Finset.sum_sdiff (f := l) h, he]
  congr 1
  apply Finset.sum_congr rfl
  intro a ha
  exact hs a (Finset.mem_sdiff.1 ha).2

theorem Spec.Conserved.refl (l : Addr → Nat) : Conserved l l := ⟨∅, fun _ _ => rfl, rfl⟩

theorem Spec.Conserved.trans {l l' l'' : Addr → Nat} (h1 : Conserved l l') (h2 : Conserved l' l'') :
    Conserved l l'' := by
  obtain ⟨S, a1, a2⟩ := h1
  obtain ⟨T, b1, b2⟩ := h2
  refine ⟨S ∪ T, ?_, ?_⟩
  · intro a ha
    rw [Finset.mem_union, not_or] at ha
    rw [b1 a ha.2, a1 a ha.1]
  · rw [Conserved.superset b1 b2 Finset.subset_union_right, Conserved.superset a1 a2 Finset.subset_union_left]

theorem moveLam_conserved {lam l : Addr → Nat} {s d : Addr} {n : Nat} (h : moveLam lam s d n = .ok l) :
    Conserved lam l := by
  obtain ⟨hne, hle, rfl⟩ := moveLam_iff.1 h
  refine ⟨{s, d}, ?_, ?_⟩
  · intro a ha
    simp only [Finset.mem_insert, Finset.mem_singleton, not_or] at ha
    rw [upd_other _ _ ha.2, upd_other _ _ ha.1]
  · rw [Finset.sum_pair hne, Finset.sum_pair hne, upd_other _ _ hne, upd_self, upd_self]
    omega

theorem payRent_conserved {r : RentEnv} {p : Addr} {new : List (Addr × Nat)} {lam l : Addr → Nat}
    (h : payRent r p new lam = .ok l) : Conserved lam l := by
  induction new generalizing lam with
  | nil => cases h; exact .refl _
  | cons x new ih =>
    obtain ⟨a, n⟩ := x
    simp only [payRent, bind_eq_ok] at h
    obtain ⟨lam1, h1, h2⟩ := h
    exact (moveLam_conserved h1).trans (ih h2)

theorem lamports_conserved {r : RentEnv} {w : World} {i : Ix} {lam l : Addr → Nat}
    (h : lamports r w i lam = .ok l) : Conserved lam l := by
  simp only [lamports, bind_eq_ok] at h
  obtain ⟨lam1, h1, h2⟩ := h
  refine Conserved.trans (l' := lam1) ?_ ?_
  · unfold chargeRent at h1
    split at h1
    · exact payRent_conserved h1
    · cases h1; exact .refl _
  · unfold payOut at h2
    split at h2
    · exact moveLam_conserved h2
    · cases h2; exact .refl _

theorem cstep_op {c c' : Chain} {o : Op} {rc : Receipt} :
    cstep c (.op o) = .ok (c', rc) ↔ ∃ w' lam, step c.w o = .ok (w', rc) ∧
      opLamports c.rent c.w o c.lam = .ok lam ∧
      c' = { c with w := w', lam := lam } := by
  simp only [cstep, bind_eq_ok, pure_eq_ok, Prod.exists, Prod.mk.injEq]
  constructor
  · rintro ⟨w', rc', h1, lam, h2, h3, rfl⟩
    exact ⟨w', lam, h1, h2, h3.symm⟩
  · rintro ⟨w', lam, h1, h2, h3⟩
    exact ⟨w', rc, h1, lam, h2, h3.symm, rfl⟩

theorem cstep_setLam {c c' : Chain} {a : Addr} {n : Nat} {rc : Receipt} :
    cstep c (.setLam a n) = .ok (c', rc) ↔ ((accountSize c.rent c.w a).isSome = true → c.lam a ≤ n) ∧
      c' = { c with lam := upd c.lam a n } ∧ rc = noReceipt := by
  simp only [cstep, bind_eq_ok, require_eq_ok, pure_eq_ok, Prod.mk.injEq, exists_const]
  exact ⟨fun ⟨a, b, c⟩ => ⟨a, b.symm, c.symm⟩, fun ⟨a, b, c⟩ => ⟨a, b.symm, c.symm⟩⟩

theorem capply_cases (c : Chain) (o : COp) : capply c o = c ∨ ∃ rc, cstep c o = .ok (capply c o, rc) := by
  unfold capply
  cases h : cstep c o with
  | error e => exact .inl rfl
  | ok x => obtain ⟨c', rc⟩ := x; exact .inr ⟨rc, rfl⟩

theorem crun_snoc (c : Chain) (os : List COp) (o : COp) : crun c (os ++ [o]) = capply (crun c os) o := by
  induction os generalizing c with
  | nil => rfl
  | cons x os ih => exact ih _

theorem cstep_world {c c' : Chain} {o : COp} {rc : Receipt} (h : cstep c o = .ok (c', rc)) :
    c'.rent = c.rent ∧ ((∃ op, o = .op op ∧ step c.w op = .ok (c'.w, rc)) ∨ c'.w = c.w) := by
  cases o with
  | op o =>
    obtain ⟨w', lam, h1, _, rfl⟩ := cstep_op.1 h
    exact ⟨rfl, .inl ⟨o, rfl, h1⟩⟩
  | setLam a n =>
    obtain ⟨_, rfl, _⟩ := cstep_setLam.1 h
    exact ⟨rfl, .inr rfl⟩

/-- **C62.** The lamport layer adds nothing to what the ledger can do: every theorem about reachable ledgers holds
with rent taken into account. -/
theorem C62_refines {c : Chain} (R : CReachable c) : Reachable c.w := by
  obtain ⟨c0, os, h0, rfl⟩ := R
  induction os using List.reverseRecOn with
  | nil => exact ⟨c0.w, [], h0, rfl⟩
  | append_singleton os o ih =>
    rw [crun_snoc]
    rcases capply_cases (crun c0 os) o with h | ⟨rc, h⟩
    · rw [h]; exact ih
    · rcases (cstep_world h).2 with ⟨op, _, hs⟩ | hw
      · exact ih.step hs
      · rw [hw]; exact ih

/-! ## C62 -/

theorem ix_kind (r : RentEnv) (w : World) (i : Ix) :
    (∃ p x l, rentPayer i = some p ∧ creations r w i = x :: l ∧ closing i = none) ∨
    (∃ a d, closing i = some (a, d) ∧ rentPayer i = none ∧ creations r w i = []) ∨
    (closing i = none ∧ rentPayer i = none ∧ creations r w i = []) := by
  cases i <;> simp [rentPayer, creations, closing]

theorem size_key {r : RentEnv} {w : World} {a : Addr} (h : a.isKey = true) : accountSize r w a = none := by
  cases a <;> simp [Addr.isKey] at h; rfl

/-- **C62.** Who pays and who receives lamports in an instruction, and how many. -/
theorem C62_moves {c c' : Chain} (R : CReachable c) {tx : Tx} {i : Ix} {rc : Receipt}
    (h : cstep c (.op (.ix tx i)) = .ok (c', rc)) : LamportRules c c' tx i := by
  have W := (C62_refines R).winv
  obtain ⟨w', l, hs, hl, rfl⟩ := cstep_op.1 h
  have hsz : ∀ a, accountSize c.rent w' a = sizeAfter c.rent c.w i a := fun a => size_after W c.rent hs a
  have hcons : Conserved c.lam l := lamports_conserved hl
  replace hl : lamports c.rent c.w i c.lam = .ok l := hl
  simp only [lamports, bind_eq_ok, chargeRent, payOut] at hl
  rcases ix_kind c.rent c.w i with ⟨p, x, tl, h1, h2, h3⟩ | ⟨a0, d, h1, h2, h3⟩ | ⟨h1, h2, h3⟩
  · -- an account is created
    have hp := payer_signed hs h1
    have hk := signer_isKey hp
    rw [h1, h3] at hl
    obtain ⟨l1, h4, h5⟩ := hl
    cases h5
    have sh := creations_shape c.rent c.w i
    rw [payRent_iff sh.1 (sh.2 p hk)] at h4
    obtain ⟨hdue, hl⟩ := h4
    have hafter : ∀ a, accountSize c.rent w' a =
        match (creations c.rent c.w i).lookup a with
        | some n => some n
        | none => accountSize c.rent c.w a := by
      intro a; rw [hsz, sizeAfter, h3]; rfl
    have hborn : ∀ a n, (creations c.rent c.w i).lookup a = some n →
        Born c { c with w := w', lam := l } a n := by
      intro a n ha
      exact ⟨creations_fresh W c.rent hs ha, by show accountSize c.rent w' a = _; rw [hafter, ha]⟩
    refine ⟨?_, ?_, ?_, ?_, hcons, ?_⟩
    · rintro a n ⟨b1, b2⟩
      have hne : a ≠ p := by rintro rfl; rw [size_key hk] at b2; cases b2
      replace b2 : accountSize c.rent w' a = some n := b2
      rw [hafter] at b2
      show l a = _
      rw [hl]
      simp only [if_neg hne]
      cases hlk : (creations c.rent c.w i).lookup a with
      | none => rw [hlk, b1] at b2; cases b2
      | some m => rw [hlk] at b2; cases b2; rfl
    · rintro a n ⟨b1, b2⟩
      replace b2 : accountSize c.rent w' a = none := b2
      rw [hafter] at b2
      cases hlk : (creations c.rent c.w i).lookup a with
      | none => rw [hlk] at b2; rw [show accountSize c.rent c.w a = none from b2] at b1; cases b1
      | some m => rw [hlk] at b2; cases b2
    · intro a ha
      replace ha : l a < c.lam a := ha
      by_cases hne : a = p
      · subst hne; exact .inr ⟨h1, hp⟩
      · rw [hl] at ha
        simp only [if_neg hne] at ha
        split at ha <;> omega
    · intro a ha
      replace ha : c.lam a < l a := ha
      rw [hl] at ha
      simp only at ha
      split at ha
      · next hne => subst hne; omega
      · cases hlk : (creations c.rent c.w i).lookup a with
        | none => rw [hlk] at ha; simp at ha
        | some m => exact .inl ⟨m, hborn a m hlk⟩
    · intro hq
      have hlk : (creations c.rent c.w i).lookup x.1 = some x.2 := by
        rw [h2]; exact List.lookup_cons_self
      have hb := hborn _ _ hlk
      have := hq x.1
      rw [hb.1, hb.2] at this
      cases this
  · -- an account is closed
    rw [h1, h2] at hl
    obtain ⟨l1, h4, h5⟩ := hl
    cases h4
    obtain ⟨hne, _, hl⟩ := moveLam_iff.1 h5
    obtain ⟨_, hkey, n0, hn0⟩ := closing_present W c.rent hs h1
    have hafter : ∀ a, accountSize c.rent w' a = if a0 = a then none else accountSize c.rent c.w a := by
      intro a; rw [hsz, sizeAfter, h1, h3]
      simp [List.lookup]
    have hgone : Gone c { c with w := w', lam := l } a0 n0 :=
      ⟨hn0, by show accountSize c.rent w' a0 = _; rw [hafter, if_pos rfl]⟩
    have hla : l a0 = 0 := by rw [hl, upd_other _ _ hne, upd_self]; omega
    have hld : l d = c.lam d + c.lam a0 := by rw [hl, upd_self]
    have hlo : ∀ a, a ≠ a0 → a ≠ d → l a = c.lam a := by
      intro a e1 e2; rw [hl, upd_other _ _ e2, upd_other _ _ e1]
    have hwas : ∀ a n, Gone c { c with w := w', lam := l } a n → a = a0 := by
      rintro a n ⟨b1, b2⟩
      replace b2 : accountSize c.rent w' a = none := b2
      rw [hafter] at b2
      by_cases he : a0 = a
      · exact he.symm
      · rw [if_neg he, b1] at b2; cases b2
    refine ⟨?_, ?_, ?_, ?_, hcons, ?_⟩
    · rintro a n ⟨b1, b2⟩
      replace b2 : accountSize c.rent w' a = some n := b2
      rw [hafter] at b2
      split at b2
      · cases b2
      · rw [b1] at b2; cases b2
    · intro a n hg
      rw [hwas a n hg]; exact hla
    · intro a ha
      replace ha : l a < c.lam a := ha
      by_cases e1 : a = a0
      · subst e1; exact .inl ⟨n0, hgone⟩
      · by_cases e2 : a = d
        · subst e2; omega
        · rw [hlo a e1 e2] at ha; omega
    · intro a ha
      replace ha : c.lam a < l a := ha
      by_cases e1 : a = a0
      · subst e1; omega
      · by_cases e2 : a = d
        · subst e2; exact .inr ⟨a0, n0, hgone, h1, hld⟩
        · rw [hlo a e1 e2] at ha; omega
    · intro hq
      have := hq a0
      rw [hgone.1, hgone.2] at this; cases this
  · rw [h1, h2] at hl
    obtain ⟨l1, h4, h5⟩ := hl
    cases h4; cases h5
    have hafter : ∀ a, accountSize c.rent w' a = accountSize c.rent c.w a := by
      intro a; rw [hsz, sizeAfter, h1, h3]; simp [List.lookup]
    refine ⟨?_, ?_, ?_, ?_, hcons, fun _ => rfl⟩
    · rintro a n ⟨b1, b2⟩
      replace b2 : accountSize c.rent w' a = some n := b2
      rw [hafter, b1] at b2; cases b2
    · rintro a n ⟨b1, b2⟩
      replace b2 : accountSize c.rent w' a = none := b2
      rw [hafter, b1] at b2; cases b2
    · intro a ha; exact absurd ha (Nat.lt_irrefl _)
    · intro a ha; exact absurd ha (Nat.lt_irrefl _)

theorem CReachable.step {c c' : Chain} (R : CReachable c) {o : COp} {rc : Receipt}
    (h : cstep c o = .ok (c', rc)) : CReachable c' := by
  obtain ⟨c0, os, h0, rfl⟩ := R
  refine ⟨c0, os ++ [o], h0, ?_⟩
  rw [crun_snoc, capply, h]

theorem CReachable.run {c : Chain} (R : CReachable c) (os : List COp) : CReachable (crun c os) := by
  induction os using List.reverseRecOn with
  | nil => exact R
  | append_singleton os o ih =>
    rw [crun_snoc]
    rcases capply_cases (crun c os) o with h | ⟨rc, h⟩
    · rw [h]; exact ih
    · exact ih.step h

theorem genesis_sizes {w : World} (G : Genesis w) (r : RentEnv) (a : Addr) : accountSize r w a = none := by
  cases a <;> simp [accountSize, G.presales, G.escrows, G.merkleRoots, G.operators, G.metadata, G.fixedArgs,
    AMap.get?]

/-- **C62.** Every account the program has created holds at least the rent-exempt minimum for its size, at all
times: no account of a sale or a buyer can be purged by the runtime. -/
theorem C62_rent_exempt {c : Chain} (R : CReachable c) {a : Addr} {n : Nat}
    (h : accountSize c.rent c.w a = some n) : c.rent.minimum n ≤ c.lam a := by
  obtain ⟨c0, os, h0, rfl⟩ := R
  induction os using List.reverseRecOn generalizing a n with
  | nil => rw [show crun c0 [] = c0 from rfl, genesis_sizes h0] at h; cases h
  | append_singleton os o ih =>
    have R : CReachable (crun c0 os) := ⟨c0, os, h0, rfl⟩
    rw [crun_snoc] at h ⊢
    rcases capply_cases (crun c0 os) o with he | ⟨rc, hs⟩
    · rw [he] at h ⊢; exact ih h
    · generalize capply (crun c0 os) o = c' at *
      generalize crun c0 os = c at *
      have hr := (cstep_world hs).1
      cases o with
      | setLam b m =>
        obtain ⟨h1, rfl, _⟩ := cstep_setLam.1 hs
        replace h : accountSize c.rent c.w a = some n := h
        have := ih h
        show c.rent.minimum n ≤ upd c.lam b m a
        rw [upd_apply]
        split
        · next hb => subst hb; have := h1 (by rw [h]; rfl); omega
        · exact this
      | op o =>
        by_cases hix : ∃ tx i, o = .ix tx i
        · obtain ⟨tx, i, rfl⟩ := hix
          have L := C62_moves R hs
          cases h1 : accountSize c.rent c.w a with
          | none =>
            rw [L.born a n ⟨h1, h⟩, hr]; exact Nat.le_max_right _ _
          | some m =>
            have hm := ih h1
            obtain ⟨w', l, hs', _, rfl⟩ := cstep_op.1 hs
            have hsz := size_after (C62_refines R).winv c.rent hs' a
            replace h : accountSize c.rent w' a = some n := h
            rw [h] at hsz
            have hnm : n = m := by
              have hsz : some n = sizeAfter c.rent c.w i a := hsz
              unfold sizeAfter at hsz
              split at hsz
              · cases hsz
              · cases hlk : (creations c.rent c.w i).lookup a with
                | none => rw [hlk, h1] at hsz; cases hsz; rfl
                | some k =>
                  have := creations_fresh (C62_refines R).winv c.rent hs' hlk
                  rw [h1] at this; cases this
            subst hnm
            by_cases hlt : l a < c.lam a
            · rcases L.loss a hlt with ⟨k, hg⟩ | ⟨_, hk⟩
              · have : accountSize c.rent w' a = none := hg.2
                rw [h] at this; cases this
              · rw [size_key (signer_isKey hk)] at h1; cases h1
            · show c.rent.minimum n ≤ l a
              omega
        · obtain ⟨w', l, hs', hl, rfl⟩ := cstep_op.1 hs
          have hl : l = c.lam := by
            cases o with
            | ix tx i => exact absurd ⟨tx, i, rfl⟩ hix
            | _ => cases hl; rfl
          have hsz : accountSize c.rent w' a = accountSize c.rent c.w a := by
            have := size_after (C62_refines R).winv c.rent hs' a
            cases o with
            | ix tx i => exact absurd ⟨tx, i, rfl⟩ hix
            | _ => exact this
          replace h : accountSize c.rent w' a = some n := h
          rw [hsz] at h
          show c.rent.minimum n ≤ l a
          rw [hl]
          exact ih h


/-- **C62.** Exactly when an instruction succeeds: the program accepts it and its payer can pay the rent still due
for the accounts it creates. Instructions that create nothing, in particular every way to get money or an account
back, never fail for want of lamports. -/
theorem C62_succeeds_iff {c : Chain} (R : CReachable c) (tx : Tx) (i : Ix) :
    (∃ c' rc, cstep c (.op (.ix tx i)) = .ok (c', rc)) ↔
      (∃ w' rc, step c.w (.ix tx i) = .ok (w', rc)) ∧
      ∀ p, rentPayer i = some p → rentDue c.rent c.lam (creations c.rent c.w i) ≤ c.lam p := by
  have W := (C62_refines R).winv
  constructor
  · rintro ⟨c', rc, h⟩
    obtain ⟨w', l, hs, hl, rfl⟩ := cstep_op.1 h
    refine ⟨⟨w', rc, hs⟩, fun p hp => ?_⟩
    replace hl : lamports c.rent c.w i c.lam = .ok l := hl
    simp only [lamports, bind_eq_ok, chargeRent, hp] at hl
    obtain ⟨l1, h4, _⟩ := hl
    have sh := creations_shape c.rent c.w i
    exact ((payRent_iff sh.1 (sh.2 p (signer_isKey (payer_signed hs hp)))).1 h4).1
  · rintro ⟨⟨w', rc, hs⟩, hd⟩
    have : ∃ l, lamports c.rent c.w i c.lam = .ok l := by
      rcases ix_kind c.rent c.w i with ⟨p, x, tl, h1, h2, h3⟩ | ⟨a0, d, h1, h2, h3⟩ | ⟨h1, h2, h3⟩
      · have sh := creations_shape c.rent c.w i
        have hp := (payRent_iff sh.1 (sh.2 p (signer_isKey (payer_signed hs h1)))).2 ⟨hd p h1, rfl⟩
        exact ⟨_, bind_eq_ok.2 ⟨_, by rw [chargeRent, h1]; exact hp, by rw [payOut, h3]⟩⟩
      · have hm := moveLam_iff.2 ⟨(closing_present W c.rent hs h1).1, le_refl (c.lam a0), rfl⟩
        exact ⟨_, bind_eq_ok.2 ⟨c.lam, by rw [chargeRent, h2], by rw [payOut, h1]; exact hm⟩⟩
      · exact ⟨c.lam, bind_eq_ok.2 ⟨c.lam, by rw [chargeRent, h2], by rw [payOut, h1]⟩⟩
    obtain ⟨l, hl⟩ := this
    exact ⟨_, rc, cstep_op.2 ⟨w', l, hs, hl, rfl⟩⟩

/-- **C62.** Conversely, rent excludes nothing the ledger can do, given payers with enough lamports. -/
theorem C62_complete {w : World} (R : Reachable w) (r : RentEnv) :
    ∃ c, CReachable c ∧ c.rent = r ∧ c.w = w := by
  obtain ⟨w0, ops, h0, rfl⟩ := R
  induction ops using List.reverseRecOn with
  | nil => exact ⟨⟨w0, r, fun _ => 0⟩, ⟨_, [], h0, rfl⟩, rfl, rfl⟩
  | append_singleton ops o ih =>
    obtain ⟨c, R, hr, hw⟩ := ih
    rw [run_snoc]
    rcases apply_cases (run w0 ops) o with h | ⟨rc, h⟩
    · rw [h]; exact ⟨c, R, hr, hw⟩
    · generalize apply (run w0 ops) o = w' at *
      rw [← hw] at h
      by_cases hix : ∃ tx i, o = .ix tx i
      · obtain ⟨tx, i, rfl⟩ := hix
        cases hp : rentPayer i with
        | none =>
          obtain ⟨c', rc', h'⟩ := (C62_succeeds_iff R tx i).2 ⟨⟨_, _, h⟩, fun p hp' => (by rw [hp] at hp'; cases hp')⟩
          obtain ⟨w'', l, hs, _, rfl⟩ := cstep_op.1 h'
          rw [h] at hs; cases hs
          exact ⟨_, R.step h', hr, rfl⟩
        | some p =>
          have hk := signer_isKey (payer_signed h hp)
          have hs0 : cstep c (.setLam p (rentDue c.rent c.lam (creations c.rent c.w i))) = .ok
              ({ c with lam := upd c.lam p (rentDue c.rent c.lam (creations c.rent c.w i)) }, noReceipt) :=
            cstep_setLam.2 ⟨fun hx => (by rw [size_key hk] at hx; cases hx), rfl, rfl⟩
          have R1 := R.step hs0
          obtain ⟨c', rc', h'⟩ := (C62_succeeds_iff R1 tx i).2 ⟨⟨_, _, h⟩, fun p' hp' => by
            rw [hp] at hp'; cases hp'
            show rentDue c.rent (upd c.lam p _) (creations c.rent c.w i) ≤ upd c.lam p _ p
            rw [upd_self]
            refine le_of_eq (rentDue_congr fun x hx => upd_other _ _ ?_)
            rintro rfl
            exact (creations_shape c.rent c.w i).2 _ hk (List.mem_map_of_mem hx)⟩
          obtain ⟨w'', l, hs, _, rfl⟩ := cstep_op.1 h'
          replace hs : step c.w (.ix tx i) = .ok (w'', rc') := hs
          rw [h] at hs; cases hs
          exact ⟨_, R1.step h', hr, rfl⟩
      · have hc : cstep c (.op o) = .ok ({ c with w := w', lam := c.lam }, rc) := by
          refine cstep_op.2 ⟨w', c.lam, h, ?_, rfl⟩
          cases o with
          | ix tx i => exact absurd ⟨tx, i, rfl⟩ hix
          | _ => rfl
        exact ⟨_, R.step hc, hr, rfl⟩

/-- The three accounts of a sale itself. -/
def Spec.SaleAccount : Addr → Bool
  | .presale .. | .baseVault _ | .quoteVault _ => true
  | _ => false

theorem closing_other {w w' : World} {tx : Tx} {i : Ix} {rc : Receipt} (W : WInv w)
    (h : step w (.ix tx i) = .ok (w', rc)) {a d : Addr} (ha : closing i = some (a, d)) :
    SaleAccount a = false := by
  cases i <;> simp only [closing, Option.some.injEq, reduceCtorEq, Prod.mk.injEq] at ha <;>
    obtain ⟨rfl, rfl⟩ := ha
  case closeFixedArgs x =>
    obtain ⟨c, F⟩ := handleCloseFixedArgs_iff.1 h
    rw [(W.aux.fixed _ _ F.account).1]; rfl
  case closeMerkle x =>
    obtain ⟨p, c, F⟩ := handleCloseMerkle_iff.1 h
    rw [(W.aux.merkle _ _ F.config).1]; rfl
  case revokeOperator x =>
    obtain ⟨o, F⟩ := handleRevokeOperator_iff.1 h
    rw [W.aux.ops _ _ F.account]; rfl
  case closeEscrow x =>
    obtain ⟨p, e, p', F⟩ := handleCloseEscrow_iff.1 h
    have hk : x.escrow = .escrow e.presale e.owner e.registryIndex := (W.core.esc _ (AMap.get?_mem F.escrow)).1
    rw [hk]; rfl
  case closeMetadata x =>
    obtain ⟨p, m, F⟩ := handleCloseMetadata_iff.1 h
    rw [(W.aux.metas _ _ F.account).1]; rfl

theorem locked_step {c c' : Chain} (R : CReachable c) {o : COp} {rc : Receipt} (h : cstep c o = .ok (c', rc))
    {a : Addr} {n : Nat} (hk : SaleAccount a = true) (ha : accountSize c.rent c.w a = some n) :
    accountSize c'.rent c'.w a = some n ∧ c.lam a ≤ c'.lam a := by
  have W := (C62_refines R).winv
  cases o with
  | setLam b m =>
    obtain ⟨h1, rfl, _⟩ := cstep_setLam.1 h
    refine ⟨ha, ?_⟩
    show c.lam a ≤ upd c.lam b m a
    rw [upd_apply]
    split
    · next hb => subst hb; exact h1 (by rw [ha]; rfl)
    · exact le_refl _
  | op o =>
    obtain ⟨w', l, hs, hl, rfl⟩ := cstep_op.1 h
    have hsz := size_after W c.rent hs a
    by_cases hix : ∃ tx i, o = .ix tx i
    · obtain ⟨tx, i, rfl⟩ := hix
      have hsz : accountSize c.rent w' a = sizeAfter c.rent c.w i a := hsz
      have hst : accountSize c.rent w' a = some n := by
        rw [hsz]
        unfold sizeAfter
        split
        · next he =>
          obtain ⟨⟨a', d⟩, hc, rfl⟩ := Option.map_eq_some_iff.1 he
          have := closing_other W hs hc
          rw [hk] at this; cases this
        · cases hlk : (creations c.rent c.w i).lookup a with
          | none => exact ha
          | some k =>
            have := creations_fresh W c.rent hs hlk
            rw [ha] at this; cases this
      refine ⟨hst, ?_⟩
      by_contra hlt
      rcases (C62_moves R h).loss a (Nat.lt_of_not_le hlt) with ⟨k, hg⟩ | ⟨_, hsig⟩
      · have : accountSize c.rent w' a = none := hg.2
        rw [hst] at this; cases this
      · have := signer_isKey hsig
        cases a <;> simp [Addr.isKey, SaleAccount] at this hk
    · have hl : l = c.lam := by
        cases o with
        | ix tx i => exact absurd ⟨tx, i, rfl⟩ hix
        | _ => cases hl; rfl
      have hsz : accountSize c.rent w' a = accountSize c.rent c.w a := by
        cases o with
        | ix tx i => exact absurd ⟨tx, i, rfl⟩ hix
        | _ => exact hsz
      exact ⟨hsz.trans ha, by rw [hl]⟩

/-- **C62.** The rent of a sale and of its two vaults is never given back: whatever happens afterwards, their
lamports only grow, even when every buyer and the creator have taken all their tokens. -/
theorem C62_locked {c : Chain} (R : CReachable c) {s : Addr} {p : Presale} (hp : c.w.presales s = some p)
    (os : List COp) {a : Addr} (ha : a = s ∨ a = .baseVault s ∨ a = .quoteVault s) :
    c.lam a ≤ (crun c os).lam a ∧ ∃ n, accountSize c.rent c.w a = some n ∧
      c.rent.minimum n ≤ (crun c os).lam a := by
  have W := (C62_refines R).winv
  have S := W.core.sale s p hp
  obtain ⟨m1, h1, _⟩ := S.baseMint
  obtain ⟨m2, h2, _⟩ := S.quoteMint
  have hs : s = .presale p.base p.baseMint p.quoteMint := S.pinv.static.key
  have hkn : SaleAccount a = true ∧ ∃ n, accountSize c.rent c.w a = some n := by
    rcases ha with rfl | rfl | rfl
    · constructor
      · rw [hs]; rfl
      · rw [hs] at hp ⊢; exact ⟨_, by simp only [accountSize, hp, Option.map_some]; rfl⟩
    · exact ⟨rfl, _, by simp only [accountSize, hp, h1, Option.bind_some, Option.map_some]; rfl⟩
    · exact ⟨rfl, _, by simp only [accountSize, hp, h2, Option.bind_some, Option.map_some]; rfl⟩
  obtain ⟨hk, n, hn⟩ := hkn
  have key : accountSize (crun c os).rent (crun c os).w a = some n ∧ c.lam a ≤ (crun c os).lam a := by
    induction os using List.reverseRecOn with
    | nil => exact ⟨hn, le_refl _⟩
    | append_singleton os o ih =>
      rw [crun_snoc]
      rcases capply_cases (crun c os) o with h | ⟨rc, h⟩
      · rw [h]; exact ih
      · have := locked_step (R.run os) h hk ih.1
        exact ⟨this.1, ih.2.trans this.2⟩
  exact ⟨key.2, n, hn, (C62_rent_exempt R hn).trans key.2⟩

/-- **C62.** Whoever pays for an escrow or another closable account, closing it hands its whole balance, at least
the rent-exempt minimum, to the receiver named in the closing instruction, who was authorised by that instruction's
own signature rules (C35), not by having paid. -/
theorem C62_closing_pays {c c' : Chain} (R : CReachable c) {tx : Tx} {i : Ix} {rc : Receipt} {a d : Addr}
    (h : cstep c (.op (.ix tx i)) = .ok (c', rc)) (hc : closing i = some (a, d)) :
    ∃ n, accountSize c.rent c.w a = some n ∧ accountSize c'.rent c'.w a = none ∧ c'.lam a = 0 ∧
      c'.lam d = c.lam d + c.lam a ∧ c.rent.minimum n ≤ c.lam a := by
  have W := (C62_refines R).winv
  have L := C62_moves R h
  obtain ⟨w', l, hs, hl, rfl⟩ := cstep_op.1 h
  obtain ⟨hne, hkey, n, hn⟩ := closing_present W c.rent hs hc
  have hsz : accountSize c.rent w' a = none := by
    have : accountSize c.rent w' a = sizeAfter c.rent c.w i a := size_after W c.rent hs a
    rw [this, sizeAfter, hc]; simp
  have hg : Gone c { c with w := w', lam := l } a n := ⟨hn, hsz⟩
  refine ⟨n, hn, hsz, L.gone a n hg, ?_, C62_rent_exempt R hn⟩
  replace hl : lamports c.rent c.w i c.lam = .ok l := hl
  rcases ix_kind c.rent c.w i with ⟨p, x, tl, h1, h2, h3⟩ | ⟨a0, d0, h1, h2, h3⟩ | ⟨h1, h2, h3⟩
  · rw [hc] at h3; cases h3
  · simp only [lamports, bind_eq_ok, chargeRent, payOut, h2, hc] at hl
    obtain ⟨l1, h4, h5⟩ := hl
    cases h4
    obtain ⟨_, _, hl⟩ := moveLam_iff.1 h5
    show l d = _
    rw [hl, upd_self]
  · rw [hc] at h1; cases h1


namespace Ex

/-- Rent as on mainnet: 6960 lamports per byte, counting 128 bytes of overhead. -/
def rent : RentEnv where
  minimum n := (128 + n) * 6960
  vaultSize p f h :=
    if p = .splToken then 165 else 165 + (if f || h then 1 else 0) + (if f then 12 else 0) + (if h then 5 else 0)

def chain0 : Chain := ⟨genesis, rent, fun a => if a.isKey then 100000000 else 0⟩

def all (ops : List Op) : List COp := ops.map .op

def chainVested : Chain :=
  crun chain0 (all (prorataOps ++ [.tick 2000, claim alice aliceBase, refund alice aliceQuote]))

/-- The rules hold in a state where a sale, its vaults and two escrows exist; the creator and the buyers paid the
rent, and closing gives Alice theirs back. -/
example : CReachable chainVested ∧
    chainVested.lam creator = 100000000 - ((128 + 1272) + (128 + 165) + (128 + 178)) * 6960 ∧
    chainVested.lam alice = 100000000 - (128 + 200) * 6960 ∧
    chainVested.lam (escrowOf alice) = (128 + 200) * 6960 ∧
    accountSize rent chainVested.w (escrowOf alice) = some 200 ∧
    accountSize rent chainVested.w (.baseVault sale) = some 165 ∧
    (capply chainVested (.op (closeEscrow alice))).lam alice = 100000000 ∧
    (capply chainVested (.op (closeEscrow alice))).lam (escrowOf alice) = 0 :=
  ⟨⟨_, _, genesis_ok, rfl⟩, by decide +kernel⟩

/-- Somebody without lamports cannot open an escrow, though the program would accept it; lamports sent to the
address beforehand count. -/
example : let c := crun chain0 (all [init 1 0 0 reg1, .tick 10] ++ [.setLam alice 0])
    (cstep c (.op (open' alice))).toBool = false ∧ works c.w (open' alice) = true ∧
    (cstep (capply c (.setLam (escrowOf alice) 9000000)) (.op (open' alice))).toBool = true := by
  decide +kernel

/-- The rent of the sale stays after everybody has left. -/
example : let c := crun chainVested (all [closeEscrow alice, claim bob bobBase, refund bob bobQuote,
      closeEscrow bob, creatorWithdraw creatorWithdrawAcc, collectFee])
    c.lam sale = (128 + 1272) * 6960 ∧ c.lam (.baseVault sale) = (128 + 165) * 6960 ∧
    hasEsc c.w (escrowOf alice) (fun _ => true) = false ∧ hasEsc c.w (escrowOf bob) (fun _ => true) = false ∧
    has c.w (fun p => p.depositFeeCollected == 1) = true := by
  decide +kernel

end Ex

end Verif
