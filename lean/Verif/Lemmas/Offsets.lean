import Verif.SpecBytes
import Verif.Model.Data
import Verif.Lemmas.Codec
/-!
# Readers by offset

`Parses c p f e`: reading format `c` at an offset succeeds exactly if `p`, gives `f` and ends at `e`. `Reads c n f` is
the case of a format of fixed size in which every string is a value.
-/

namespace Verif
open Spec

/-- What reading at an offset gives. -/
structure Codec.Parses {α : Type} (c : Codec α) (p : Bytes → Nat → Prop) (f : Bytes → Nat → α)
    (e : Bytes → Nat → Nat) : Prop where
  yes : ∀ d o, o ≤ d.length → p d o → c.dec (d.drop o) = some (f d o, d.drop (e d o))
  no : ∀ d o, o ≤ d.length → ¬ p d o → c.dec (d.drop o) = none
  le : ∀ d o, o ≤ d.length → p d o → e d o ≤ d.length

/-- Fixed size, no invalid values. -/
def Codec.Reads {α : Type} (c : Codec α) (n : Nat) (f : Bytes → Nat → α) : Prop :=
  c.Parses (fun d o => o + n ≤ d.length) f (fun _ o => o + n)

theorem byteAt_drop (d : Bytes) (o i : Nat) : byteAt (d.drop o) i = byteAt d (o + i) := by
  unfold byteAt
  rw [List.getD_eq_getElem?_getD, List.getD_eq_getElem?_getD, List.getElem?_drop]

theorem bytesAt_eq (d : Bytes) (o n : Nat) (h : o + n ≤ d.length) : (d.drop o).take n = bytesAt d o n := by
  apply List.ext_getElem?
  intro i
  unfold bytesAt
  rw [List.getElem?_take, List.getElem?_map]
  by_cases hi : i < n
  · rw [if_pos hi, List.getElem?_range hi, List.getElem?_drop]
    have hl : o + i < d.length := by omega
    simp only [Option.map_some, byteAt]
    rw [List.getD_eq_getElem?_getD, List.getElem?_eq_getElem hl]
    rfl
  · rw [if_neg hi, List.getElem?_eq_none (by rw [List.length_range]; omega)]
    rfl

theorem sum_scale (c : Nat) (g : Nat → Nat) (l : List Nat) :
    (l.map fun i => c * g i).sum = c * (l.map g).sum := by
  induction l with
  | nil => rfl
  | cons a l ih => simp only [List.map_cons, List.sum_cons]; rw [ih, Nat.mul_add]

theorem numAt_succ (d : Bytes) (o n : Nat) : numAt d o (n + 1) = (byteAt d o).toNat + 256 * numAt d (o + 1) n := by
  unfold numAt
  rw [List.range_succ_eq_map]
  simp only [List.map_cons, List.sum_cons, List.map_map]
  have : ((fun i => (byteAt d (o + i)).toNat * 256 ^ i) ∘ Nat.succ) =
      fun i => 256 * ((byteAt d (o + 1 + i)).toNat * 256 ^ i) := by
    funext i
    simp only [Function.comp]
    rw [show o + i.succ = o + 1 + i by omega, Nat.pow_succ, Nat.mul_comm (256 ^ i), Nat.mul_left_comm]
  rw [this, sum_scale]
  simp

theorem leNat_eq (d : Bytes) (o n : Nat) : leNat (bytesAt d o n) = numAt d o n := by
  induction n generalizing o with
  | zero => rfl
  | succ n ih =>
    have : bytesAt d o (n + 1) = byteAt d o :: bytesAt d (o + 1) n := by
      unfold bytesAt
      rw [List.range_succ_eq_map, List.map_cons, List.map_map]
      refine congrArg _ (List.map_congr_left fun i _ => ?_)
      simp only [Function.comp]
      rw [show o + i.succ = o + 1 + i by omega]
    rw [this, numAt_succ, ← ih]
    rfl

namespace Codec

variable {α β : Type}

theorem raw_reads (n : Nat) : (raw n).Reads n (fun d o => bytesAt d o n) where
  yes d o ho h := by
    have hl : n ≤ (d.drop o).length := by rw [List.length_drop]; omega
    simp only [raw]
    rw [if_pos hl, bytesAt_eq d o n h, List.drop_drop]
  no d o ho h := by
    have hl : ¬ n ≤ (d.drop o).length := by rw [List.length_drop]; omega
    simp only [raw]
    rw [if_neg hl]
  le d o _ h := h

theorem Parses.map {c : Codec α} {p : Bytes → Nat → Prop} {f : Bytes → Nat → α} {e : Bytes → Nat → Nat}
    (P : c.Parses p f e) (F : α → β) (G : β → α) (ok : β → Prop) :
    (c.map F G ok).Parses p (fun d o => F (f d o)) e where
  yes d o ho h := by simp only [Codec.map]; rw [P.yes d o ho h]
  no d o ho h := by simp only [Codec.map]; rw [P.no d o ho h]
  le := P.le

theorem Reads.map {c : Codec α} {n : Nat} {f : Bytes → Nat → α} (P : c.Reads n f) (F : α → β) (G : β → α)
    (ok : β → Prop) : (c.map F G ok).Reads n (fun d o => F (f d o)) := Parses.map P F G ok

theorem uint_reads (n : Nat) : (uint n).Reads n (fun d o => numAt d o n) := by
  have h := (raw_reads n).map leNat (leBytes n) (fun v => v < 256 ^ n)
  have e : (fun d o => leNat (bytesAt d o n)) = fun d o => numAt d o n := by
    funext d o; exact leNat_eq d o n
  rw [e] at h
  exact h

theorem pad_reads (n : Nat) : (pad n).Reads n (fun _ _ => ()) := (raw_reads n).map _ _ _

theorem key_reads (K : Keys) : K.codec.Reads 32 (keyAt K) := (raw_reads 32).map _ _ _

theorem Parses.pair {c : Codec α} {c' : Codec β} {p p' : Bytes → Nat → Prop} {f : Bytes → Nat → α}
    {f' : Bytes → Nat → β} {e e' : Bytes → Nat → Nat} (P : c.Parses p f e) (P' : c'.Parses p' f' e') :
    (c.pair c').Parses (fun d o => p d o ∧ p' d (e d o)) (fun d o => (f d o, f' d (e d o)))
      (fun d o => e' d (e d o)) where
  yes d o ho h := by
    simp only [Codec.pair]
    rw [P.yes d o ho h.1]
    simp only
    rw [P'.yes d _ (P.le d o ho h.1) h.2]
  no d o ho h := by
    simp only [Codec.pair]
    by_cases h1 : p d o
    · rw [P.yes d o ho h1]
      simp only
      rw [P'.no d _ (P.le d o ho h1) (fun h2 => h ⟨h1, h2⟩)]
    · rw [P.no d o ho h1]
  le d o ho h := P'.le d _ (P.le d o ho h.1) h.2

theorem Parses.congr {c : Codec α} {p p' : Bytes → Nat → Prop} {f f' : Bytes → Nat → α} {e e' : Bytes → Nat → Nat}
    (P : c.Parses p f e) (hp : ∀ d o, p d o ↔ p' d o) (hf : ∀ d o, p' d o → f d o = f' d o)
    (he : ∀ d o, p' d o → e d o = e' d o) : c.Parses p' f' e' where
  yes d o ho h := by rw [P.yes d o ho ((hp d o).2 h), hf d o h, he d o h]
  no d o ho h := P.no d o ho (fun g => h ((hp d o).1 g))
  le d o ho h := by rw [← he d o h]; exact P.le d o ho ((hp d o).2 h)

theorem Reads.pair {c : Codec α} {c' : Codec β} {m n : Nat} {f : Bytes → Nat → α} {f' : Bytes → Nat → β}
    (P : c.Reads m f) (P' : c'.Reads n f') :
    (c.pair c').Reads (m + n) (fun d o => (f d o, f' d (o + m))) :=
  (Parses.pair P P').congr (fun d o => ⟨fun h => by have := h.2; omega, fun h => ⟨by omega, by omega⟩⟩)
    (fun _ _ _ => rfl) (fun _ _ _ => by omega)

theorem Parses.guard {c : Codec α} {p : Bytes → Nat → Prop} {f : Bytes → Nat → α} {e : Bytes → Nat → Nat}
    (P : c.Parses p f e) (ok : α → Bool) :
    (c.guard ok).Parses (fun d o => p d o ∧ ok (f d o) = true) f e where
  yes d o ho h := by
    simp only [Codec.guard]
    rw [P.yes d o ho h.1]
    simp only
    rw [if_pos h.2]
  no d o ho h := by
    simp only [Codec.guard]
    by_cases h1 : p d o
    · rw [P.yes d o ho h1]
      simp only
      rw [if_neg (fun h2 => h ⟨h1, h2⟩)]
    · rw [P.no d o ho h1]
  le d o ho h := P.le d o ho h.1

theorem itemsAt_succ (f : Bytes → Nat → α) (s : Nat) (d : Bytes) (o k : Nat) :
    itemsAt f s d o (k + 1) = f d o :: itemsAt f s d (o + s) k := by
  unfold itemsAt
  rw [List.range_succ_eq_map, List.map_cons, List.map_map]
  rw [Nat.mul_zero, Nat.add_zero]
  refine congrArg _ (List.map_congr_left fun i _ => ?_)
  simp only [Function.comp]
  congr 1
  rw [Nat.mul_succ]; omega

/-- Items of `s` bytes each, every one of which has to satisfy `q`. -/
theorem decN_parses {c : Codec α} {s : Nat} {q : Bytes → Nat → Prop} {f : Bytes → Nat → α}
    (P : c.Parses (fun d o => o + s ≤ d.length ∧ q d o) f (fun _ o => o + s)) (k : Nat) (d : Bytes) (o : Nat)
    (ho : o ≤ d.length) :
    ((o + s * k ≤ d.length ∧ ∀ i < k, q d (o + s * i)) →
      decN c k (d.drop o) = some (itemsAt f s d o k, d.drop (o + s * k))) ∧
    (¬ (o + s * k ≤ d.length ∧ ∀ i < k, q d (o + s * i)) → decN c k (d.drop o) = none) := by
  induction k generalizing o with
  | zero =>
    refine ⟨fun _ => ?_, fun h => absurd ⟨by omega, fun i hi => absurd hi (by omega)⟩ h⟩
    simp [decN, itemsAt]
  | succ k ih =>
    have split : (o + s * (k + 1) ≤ d.length ∧ ∀ i < k + 1, q d (o + s * i)) ↔
        (o + s ≤ d.length ∧ q d o) ∧ (o + s + s * k ≤ d.length ∧ ∀ i < k, q d (o + s + s * i)) := by
      have e1 : o + s * (k + 1) = o + s + s * k := by rw [Nat.mul_succ]; omega
      rw [e1]
      constructor
      · rintro ⟨h1, h2⟩
        refine ⟨⟨?_, ?_⟩, h1, fun i hi => ?_⟩
        · have := Nat.zero_le (s * k); omega
        · have := h2 0 (by omega); rwa [Nat.mul_zero, Nat.add_zero] at this
        · have := h2 (i + 1) (by omega)
          rwa [Nat.mul_succ, show o + (s * i + s) = o + s + s * i by omega] at this
      · rintro ⟨⟨_, h1⟩, h2, h3⟩
        refine ⟨h2, fun i hi => ?_⟩
        cases i with
        | zero => rwa [Nat.mul_zero, Nat.add_zero]
        | succ i =>
          rw [Nat.mul_succ, show o + (s * i + s) = o + s + s * i by omega]
          exact h3 i (by omega)
    rw [split]
    constructor
    · rintro ⟨h1, h2⟩
      rw [decN, P.yes d o ho h1]
      simp only
      rw [(ih (o + s) h1.1).1 h2, itemsAt_succ]
      simp only
      rw [Nat.mul_succ, show o + (s * k + s) = o + s + s * k by omega]
    · intro h
      rw [decN]
      by_cases h1 : o + s ≤ d.length ∧ q d o
      · rw [P.yes d o ho h1]
        simp only
        rw [(ih (o + s) h1.1).2 (fun h2 => h ⟨h1, h2⟩)]
      · rw [P.no d o ho h1]

theorem Reads.toParses {c : Codec α} {s : Nat} {f : Bytes → Nat → α} (P : c.Reads s f) :
    c.Parses (fun d o => o + s ≤ d.length ∧ True) f (fun _ o => o + s) :=
  Parses.congr P (fun _ _ => ⟨fun h => ⟨h, trivial⟩, fun h => h.1⟩) (fun _ _ _ => rfl) (fun _ _ _ => rfl)

theorem Reads.array {c : Codec α} {s : Nat} {f : Bytes → Nat → α} (P : c.Reads s f) (k : Nat) :
    (array k c).Reads (s * k) (fun d o => itemsAt f s d o k) where
  yes d o ho h := (decN_parses P.toParses k d o ho).1 ⟨h, fun _ _ => trivial⟩
  no d o ho h := (decN_parses P.toParses k d o ho).2 (fun g => h g.1)
  le d o ho h := h

theorem Parses.vec {c : Codec α} {s : Nat} {q : Bytes → Nat → Prop} {f : Bytes → Nat → α}
    (P : c.Parses (fun d o => o + s ≤ d.length ∧ q d o) f (fun _ o => o + s)) :
    (vec c).Parses
      (fun d o => o + 4 + s * numAt d o 4 ≤ d.length ∧ ∀ i < numAt d o 4, q d (o + 4 + s * i))
      (fun d o => itemsAt f s d (o + 4) (numAt d o 4)) (fun d o => o + 4 + s * numAt d o 4) where
  yes d o ho h := by
    have h4 : o + 4 ≤ d.length := by have := Nat.zero_le (s * numAt d o 4); omega
    simp only [Codec.vec]
    rw [(uint_reads 4).yes d o ho h4]
    simp only
    exact (decN_parses P _ d (o + 4) h4).1 h
  no d o ho h := by
    simp only [Codec.vec]
    by_cases h4 : o + 4 ≤ d.length
    · rw [(uint_reads 4).yes d o ho h4]
      simp only
      exact (decN_parses P _ d (o + 4) h4).2 h
    · rw [(uint_reads 4).no d o ho h4]
  le d o ho h := h.1

theorem Reads.vec {c : Codec α} {s : Nat} {f : Bytes → Nat → α} (P : c.Reads s f) :
    (Codec.vec c).Parses (fun d o => o + 4 + s * numAt d o 4 ≤ d.length)
      (fun d o => itemsAt f s d (o + 4) (numAt d o 4)) (fun d o => o + 4 + s * numAt d o 4) :=
  (Parses.vec P.toParses).congr (fun _ _ => ⟨fun h => h.1, fun h => ⟨h, fun _ _ => trivial⟩⟩) (fun _ _ _ => rfl)
    (fun _ _ _ => rfl)

theorem nothing_reads : nothing.Reads 0 (fun _ _ => ()) where
  yes d o _ _ := rfl
  no d o ho h := absurd ho h
  le d o ho _ := ho

end Codec

end Verif
