import Verif.Model.Instructions
import Mathlib.Tactic.Common
/-!
# UTF-8: the byte ranges of RFC 3629 are exactly the encodings of characters
-/

namespace Verif

theorem byte_eq {a : UInt8} {n : Nat} (h : a.toNat = n) : UInt8.ofNat n = a := by
  subst h; simp

theorem exists_char {v : Nat} (h : v < 0xD800 ∨ 0xDFFF < v ∧ v < 0x110000) : ∃ c : Char, c.val.toNat = v :=
  ⟨Char.ofNatAux v h, rfl⟩

theorem byte_le {a b : UInt8} : decide (a ≤ b) = decide (a.toNat ≤ b.toNat) := by
  rw [decide_eq_decide]; exact UInt8.le_iff_toNat_le

/-- The range checks on numbers. -/
theorem utf8Tail_iff {b : UInt8} : utf8Tail b = true ↔ 0x80 ≤ b.toNat ∧ b.toNat ≤ 0xBF := by
  simp [utf8Tail, UInt8.le_iff_toNat_le]

theorem utf8Head3_iff {a b : UInt8} : utf8Head3 a b = true ↔
    (a.toNat = 0xE0 ∧ 0xA0 ≤ b.toNat ∧ b.toNat ≤ 0xBF) ∨
    (0xE1 ≤ a.toNat ∧ a.toNat ≤ 0xEC ∧ 0x80 ≤ b.toNat ∧ b.toNat ≤ 0xBF) ∨
    (a.toNat = 0xED ∧ 0x80 ≤ b.toNat ∧ b.toNat ≤ 0x9F) ∨
    (0xEE ≤ a.toNat ∧ a.toNat ≤ 0xEF ∧ 0x80 ≤ b.toNat ∧ b.toNat ≤ 0xBF) := by
  simp only [utf8Head3, Bool.or_eq_true, Bool.and_eq_true, beq_iff_eq, decide_eq_true_eq, UInt8.le_iff_toNat_le,
    utf8Tail_iff, ← UInt8.toNat_inj]
  simp only [UInt8.reduceToNat]
  omega

theorem utf8Head4_iff {a b : UInt8} : utf8Head4 a b = true ↔
    (a.toNat = 0xF0 ∧ 0x90 ≤ b.toNat ∧ b.toNat ≤ 0xBF) ∨
    (0xF1 ≤ a.toNat ∧ a.toNat ≤ 0xF3 ∧ 0x80 ≤ b.toNat ∧ b.toNat ≤ 0xBF) ∨
    (a.toNat = 0xF4 ∧ 0x80 ≤ b.toNat ∧ b.toNat ≤ 0x8F) := by
  simp only [utf8Head4, Bool.or_eq_true, Bool.and_eq_true, beq_iff_eq, decide_eq_true_eq, UInt8.le_iff_toNat_le,
    utf8Tail_iff, ← UInt8.toNat_inj]
  simp only [UInt8.reduceToNat]
  omega

theorem ofNat_val {n : Nat} (h : n < 256) : (UInt8.ofNat n).toNat = n := by
  rw [UInt8.toNat_ofNat']; exact Nat.mod_eq_of_lt h

/-- Encodings have these four shapes. -/
theorem encode_shape (c : Char) :
    (∃ a, String.utf8EncodeChar c = [a] ∧ a.toNat ≤ 0x7F) ∨
    (∃ a b, String.utf8EncodeChar c = [a, b] ∧ 0xC2 ≤ a.toNat ∧ a.toNat ≤ 0xDF ∧ utf8Tail b = true) ∨
    (∃ a b d, String.utf8EncodeChar c = [a, b, d] ∧ utf8Head3 a b = true ∧ utf8Tail d = true) ∨
    (∃ a b d e, String.utf8EncodeChar c = [a, b, d, e] ∧ utf8Head4 a b = true ∧ utf8Tail d = true ∧
      utf8Tail e = true) := by
  have hv : c.val.toNat < 0xD800 ∨ 0xDFFF < c.val.toNat ∧ c.val.toNat < 0x110000 := c.valid
  unfold String.utf8EncodeChar
  simp only
  generalize c.val.toNat = v at hv
  by_cases h1 : v ≤ 0x7F
  · rw [if_pos h1]
    exact .inl ⟨_, rfl, by rw [ofNat_val (by omega)]; omega⟩
  rw [if_neg h1]
  by_cases h2 : v ≤ 0x7FF
  · rw [if_pos h2]
    refine .inr (.inl ⟨_, _, rfl, ?_, ?_, ?_⟩)
    · rw [ofNat_val (by omega)]; omega
    · rw [ofNat_val (by omega)]; omega
    · rw [utf8Tail_iff, ofNat_val (by omega)]; omega
  rw [if_neg h2]
  by_cases h3 : v ≤ 0xFFFF
  · rw [if_pos h3]
    refine .inr (.inr (.inl ⟨_, _, _, rfl, ?_, ?_⟩))
    · rw [utf8Head3_iff, ofNat_val (by omega), ofNat_val (by omega)]; omega
    · rw [utf8Tail_iff, ofNat_val (by omega)]; omega
  rw [if_neg h3]
  refine .inr (.inr (.inr ⟨_, _, _, _, rfl, ?_, ?_, ?_⟩))
  · rw [utf8Head4_iff, ofNat_val (by omega), ofNat_val (by omega)]; omega
  · rw [utf8Tail_iff, ofNat_val (by omega)]; omega
  · rw [utf8Tail_iff, ofNat_val (by omega)]; omega

theorem shape1 {a : UInt8} (h : a.toNat ≤ 0x7F) : ∃ c : Char, String.utf8EncodeChar c = [a] := by
  obtain ⟨c, hc⟩ := exists_char (v := a.toNat) (by omega)
  refine ⟨c, ?_⟩
  unfold String.utf8EncodeChar
  simp only [hc]
  rw [if_pos h, byte_eq rfl]

theorem shape2 {a b : UInt8} (h : 0xC2 ≤ a.toNat ∧ a.toNat ≤ 0xDF) (hb : utf8Tail b = true) :
    ∃ c : Char, String.utf8EncodeChar c = [a, b] := by
  rw [utf8Tail_iff] at hb
  obtain ⟨c, hc⟩ := exists_char (v := (a.toNat - 0xC0) * 64 + (b.toNat - 0x80)) (by omega)
  refine ⟨c, ?_⟩
  unfold String.utf8EncodeChar
  simp only [hc]
  rw [if_neg (by omega), if_pos (by omega), byte_eq (a := a) (by omega), byte_eq (a := b) (by omega)]

theorem shape3 {a b d : UInt8} (h : utf8Head3 a b = true) (hd : utf8Tail d = true) :
    ∃ c : Char, String.utf8EncodeChar c = [a, b, d] := by
  rw [utf8Tail_iff] at hd
  rw [utf8Head3_iff] at h
  obtain ⟨c, hc⟩ := exists_char (v := (a.toNat - 0xE0) * 4096 + (b.toNat - 0x80) * 64 + (d.toNat - 0x80)) (by omega)
  refine ⟨c, ?_⟩
  unfold String.utf8EncodeChar
  simp only [hc]
  rw [if_neg (by omega), if_neg (by omega), if_pos (by omega), byte_eq (a := a) (by omega),
    byte_eq (a := b) (by omega), byte_eq (a := d) (by omega)]

theorem shape4 {a b d e : UInt8} (h : utf8Head4 a b = true) (hd : utf8Tail d = true) (he : utf8Tail e = true) :
    ∃ c : Char, String.utf8EncodeChar c = [a, b, d, e] := by
  rw [utf8Tail_iff] at hd he
  rw [utf8Head4_iff] at h
  obtain ⟨c, hc⟩ := exists_char (v := (a.toNat - 0xF0) * 262144 + (b.toNat - 0x80) * 4096 + (d.toNat - 0x80) * 64 +
    (e.toNat - 0x80)) (by omega)
  refine ⟨c, ?_⟩
  unfold String.utf8EncodeChar
  simp only [hc]
  rw [if_neg (by omega), if_neg (by omega), if_neg (by omega), byte_eq (a := a) (by omega),
    byte_eq (a := b) (by omega), byte_eq (a := d) (by omega), byte_eq (a := e) (by omega)]

theorem utf8_cons (a b : UInt8) (bs : Bytes) : utf8 (a :: b :: bs) =
    if a ≤ 0x7F then utf8 (b :: bs)
    else if 0xC2 ≤ a && a ≤ 0xDF then utf8Tail b && utf8 bs
    else match bs with
      | [] => false
      | c :: cs =>
        if a ≤ 0xEF then utf8Head3 a b && utf8Tail c && utf8 cs
        else match cs with
          | [] => false
          | d :: ds => utf8Head4 a b && utf8Tail c && utf8Tail d && utf8 ds := by
  rw [utf8.eq_def]
  rfl

theorem utf8_char (c : Char) (rest : Bytes) : utf8 (String.utf8EncodeChar c ++ rest) = utf8 rest := by
  rcases encode_shape c with ⟨a, h, h1⟩ | ⟨a, b, h, h1, h2, h3⟩ | ⟨a, b, d, h, h1, h2⟩ | ⟨a, b, d, e, h, h1, h2, h3⟩
  · rw [h]
    cases rest with
    | nil => simp [utf8, UInt8.le_iff_toNat_le, h1]
    | cons x xs =>
      simp only [List.cons_append, List.nil_append]
      rw [utf8_cons, if_pos (by rw [UInt8.le_iff_toNat_le]; exact h1)]
  · rw [h]
    simp only [List.cons_append, List.nil_append]
    rw [utf8_cons]
    rw [if_neg (by rw [UInt8.le_iff_toNat_le]; simp; omega), if_pos (by simp [UInt8.le_iff_toNat_le]; omega), h3,
      Bool.true_and]
  · rw [h]
    simp only [List.cons_append, List.nil_append]
    rw [utf8_cons]
    have := utf8Head3_iff.1 h1
    rw [if_neg (by rw [UInt8.le_iff_toNat_le]; simp; omega), if_neg (by simp [UInt8.le_iff_toNat_le]; omega)]
    simp only
    rw [if_pos (by rw [UInt8.le_iff_toNat_le]; simp; omega), h1, h2, Bool.true_and, Bool.true_and]
  · rw [h]
    simp only [List.cons_append, List.nil_append]
    rw [utf8_cons]
    have := utf8Head4_iff.1 h1
    rw [if_neg (by rw [UInt8.le_iff_toNat_le]; simp; omega), if_neg (by simp [UInt8.le_iff_toNat_le]; omega)]
    simp only
    rw [if_neg (by rw [UInt8.le_iff_toNat_le]; simp; omega)]
    rw [h1, h2, h3, Bool.true_and, Bool.true_and, Bool.true_and]

/-- Well-formed byte strings are exactly the encodings of sequences of characters. -/
theorem utf8_iff (b : Bytes) : utf8 b = true ↔ ∃ chars : List Char, b = chars.flatMap String.utf8EncodeChar := by
  constructor
  · intro h
    induction hn : b.length using Nat.strongRecOn generalizing b with
    | ind n ih =>
      subst hn
      have go : ∀ (pre rest : Bytes), b = pre ++ rest → pre ≠ [] → (∃ c, String.utf8EncodeChar c = pre) →
          utf8 rest = true → ∃ chars : List Char, b = chars.flatMap String.utf8EncodeChar := by
        rintro pre rest rfl hne ⟨c, rfl⟩ hr
        have hl : 0 < (String.utf8EncodeChar c).length := List.length_pos_iff.2 hne
        obtain ⟨cs, rfl⟩ := ih rest.length (by rw [List.length_append]; omega) rest hr rfl
        exact ⟨c :: cs, rfl⟩
      match b, h with
      | [], _ => exact ⟨[], rfl⟩
      | [a], h =>
        refine go [a] [] rfl (by simp) (shape1 ?_) rfl
        simpa [utf8, UInt8.le_iff_toNat_le] using h
      | a :: x :: bs, h =>
        rw [utf8_cons] at h
        split at h
        · next h1 =>
          exact go [a] (x :: bs) rfl (by simp) (shape1 (by simpa [UInt8.le_iff_toNat_le] using h1)) h
        split at h
        · next h1 h2 =>
          simp only [Bool.and_eq_true] at h
          exact go [a, x] bs rfl (by simp) (shape2 (by simpa [UInt8.le_iff_toNat_le] using h2) h.1) h.2
        match bs, h with
        | [], h => cases h
        | d :: ds, h =>
          simp only at h
          split at h
          · simp only [Bool.and_eq_true] at h
            exact go [a, x, d] ds rfl (by simp) (shape3 h.1.1 h.1.2) h.2
          match ds, h with
          | [], h => cases h
          | e :: es, h =>
            simp only [Bool.and_eq_true] at h
            exact go [a, x, d, e] es rfl (by simp) (shape4 h.1.1.1 h.1.1.2 h.1.2) h.2
  · rintro ⟨chars, rfl⟩
    induction chars with
    | nil => rfl
    | cons c cs ih =>
      rw [List.flatMap_cons, utf8_char]
      exact ih

end Verif
