import Verif.SpecTokenData
import Verif.Model.TokenData
import Verif.Lemmas.Offsets
/-!
# Readers of Token-2022 data
-/

namespace Verif
open Spec (Holds First)

theorem leNat_two (a b : UInt8) : leNat [a, b] = a.toNat + 256 * b.toNat := by
  simp only [leNat]; omega

theorem Spec.Holds.two {a b : UInt8} (h : Holds [a, b] l) : a.toNat + 256 * b.toNat = 0 ∧ l = [] := by
  cases h
  exact ⟨rfl, rfl⟩

theorem Spec.Holds.three {a b c : UInt8} (h : Holds [a, b, c] l) : a.toNat + 256 * b.toNat = 0 ∧ l = [] := by
  cases h
  exact ⟨rfl, rfl⟩

theorem byte_zero {a b : UInt8} (h : a.toNat + 256 * b.toNat = 0) : a = 0 ∧ b = 0 := by
  constructor
  · apply UInt8.toNat_inj.1; show _ = 0; omega
  · apply UInt8.toNat_inj.1; show _ = 0; omega

theorem Spec.Holds.zero {a b : UInt8} {r : Bytes} (h : a.toNat + 256 * b.toNat = 0) : Holds (a :: b :: r) l ↔ l = [] := by
  obtain ⟨rfl, rfl⟩ := byte_zero h
  constructor
  · intro H
    cases H with
    | blank => rfl
    | entry a b c d ht hu hl hm => exact absurd (ht.trans h) (by omega)
  · rintro rfl
    exact .blank _

theorem Spec.Holds.cons {a b c d : UInt8} {r : Bytes} {l : List (Nat × Bytes)} (h : a.toNat + 256 * b.toNat ≠ 0) :
    Holds (a :: b :: c :: d :: r) l ↔ c.toNat + 256 * d.toNat ≤ r.length ∧
      ∃ l', l = (a.toNat + 256 * b.toNat, r.take (c.toNat + 256 * d.toNat)) :: l' ∧
        Holds (r.drop (c.toNat + 256 * d.toNat)) l' := by
  constructor
  · intro H
    cases H with
    | blank => exact absurd rfl h
    | entry a b c d ht hu hl hm =>
      rename_i t v rest l
      rw [← hl]
      refine ⟨by simp, l, ?_, ?_⟩
      · rw [List.take_left, ht]
      · rw [List.drop_left]; exact hm
  · rintro ⟨h1, l', rfl, h2⟩
    have := Holds.entry a b c d rfl (Nat.pos_of_ne_zero h) (v := r.take (c.toNat + 256 * d.toNat))
      (by rw [List.length_take]; omega) h2
    rwa [List.take_append_drop] at this

/-- Only one list of entries is held. -/
theorem Spec.Holds.unique {bs : Bytes} {l l' : List (Nat × Bytes)} (h : Holds bs l) (h' : Holds bs l') : l = l' := by
  induction h generalizing l' with
  | nil => cases h'; rfl
  | stump b => cases h'; rfl
  | blank rest => exact ((Spec.Holds.zero rfl).1 h').symm
  | @entry t v rest l a b c d ht hu hl hm ih =>
    obtain ⟨_, l1, rfl, h2⟩ := (Spec.Holds.cons (by omega)).1 h'
    rw [← hl, List.drop_left] at h2
    rw [ih h2, ← hl, List.take_left, ht]

theorem Spec.Holds.used {bs : Bytes} {l : List (Nat × Bytes)} (h : Holds bs l) : ∀ x ∈ l, 0 < x.1 := by
  induction h with
  | entry a b c d ht hu hl hm ih =>
    intro x hx
    rcases List.mem_cons.1 hx with rfl | hx
    · exact hu
    · exact ih x hx
  | _ => intro x hx; cases hx

theorem tlvTypes_iff (T : ExtTable) {n : Nat} {bs : Bytes} {ts : List Nat} (hn : bs.length ≤ n) :
    tlvTypes T n bs = some ts ↔ ∃ l, Holds bs l ∧ (∀ x ∈ l, T.side x.1 ≠ none) ∧ ts = l.map (·.1) := by
  induction n generalizing bs ts with
  | zero =>
    obtain rfl := List.length_eq_zero_iff.1 (Nat.le_zero.1 hn)
    simp only [tlvTypes, Option.some.injEq]
    constructor
    · rintro rfl
      exact ⟨[], .nil, by simp, rfl⟩
    · rintro ⟨l, h, _, rfl⟩
      cases h; rfl
  | succ n ih =>
    match bs, hn with
    | [], _ =>
      simp only [tlvTypes, List.length_nil, Nat.zero_lt_succ, if_true, Option.some.injEq]
      constructor
      · rintro rfl
        exact ⟨[], .nil, by simp, rfl⟩
      · rintro ⟨l, h, _, rfl⟩
        cases h; rfl
    | [b], _ =>
      simp only [tlvTypes, if_pos (show [b].length < 2 by simp), Option.some.injEq]
      constructor
      · rintro rfl
        exact ⟨[], .stump b, by simp, rfl⟩
      · rintro ⟨l, h, _, rfl⟩
        cases h; rfl
    | a :: b :: r, hn =>
      have hlen : ¬ (a :: b :: r).length < 2 := by simp
      simp only [tlvTypes, if_neg hlen, List.take_succ_cons, List.take_zero, leNat_two]
      by_cases h0 : a.toNat + 256 * b.toNat = 0
      · rw [if_pos h0]
        constructor
        · intro h; cases h
          exact ⟨[], (Spec.Holds.zero h0).2 rfl, by simp, rfl⟩
        · rintro ⟨l, h, _, rfl⟩
          rw [(Spec.Holds.zero h0).1 h]; rfl
      · rw [if_neg h0]
        match r, hn with
        | [], _ =>
          have : ∀ l, ¬ Holds [a, b] l := fun l h => h0 h.two.1
          constructor
          · intro h
            rw [if_pos (show [a, b].length < 4 by simp)] at h
            split at h <;> cases h
          · rintro ⟨l, h, _⟩; exact absurd h (this l)
        | [c], _ =>
          have : ∀ l, ¬ Holds [a, b, c] l := fun l h => h0 h.three.1
          constructor
          · intro h
            rw [if_pos (show [a, b, c].length < 4 by simp)] at h
            split at h <;> cases h
          · rintro ⟨l, h, _⟩; exact absurd h (this l)
        | c :: d :: r, hn =>
          have hlen : ¬ (a :: b :: c :: d :: r).length < 4 := by simp
          have htake : ((a :: b :: c :: d :: r).drop 2).take 2 = [c, d] := rfl
          have hdrop : ∀ k, (a :: b :: c :: d :: r).drop (4 + k) = r.drop k := by
            intro k; rw [Nat.add_comm]; rfl
          rw [if_neg hlen, htake, leNat_two, hdrop]
          have hle : (a :: b :: c :: d :: r).length < 4 + (c.toNat + 256 * d.toNat) ↔
              ¬ c.toNat + 256 * d.toNat ≤ r.length := by
            simp only [List.length_cons]; omega
          simp only [hle, Spec.Holds.cons h0]
          by_cases hs : T.side (a.toNat + 256 * b.toNat) = none
          · rw [if_pos hs]
            constructor
            · intro h; cases h
            · rintro ⟨l, ⟨_, l', rfl, _⟩, h, _⟩
              exact absurd hs (h _ List.mem_cons_self)
          · rw [if_neg hs]
            by_cases hk : c.toNat + 256 * d.toNat ≤ r.length
            · rw [if_neg (by simpa using hk)]
              have hr : (r.drop (c.toNat + 256 * d.toNat)).length ≤ n := by
                simp only [List.length_cons] at hn
                rw [List.length_drop]; omega
              rw [Option.map_eq_some_iff]
              constructor
              · rintro ⟨us, h, rfl⟩
                obtain ⟨l, h1, h2, rfl⟩ := (ih hr).1 h
                refine ⟨_, ⟨hk, l, rfl, h1⟩, ?_, rfl⟩
                intro x hx
                rcases List.mem_cons.1 hx with rfl | hx
                · exact hs
                · exact h2 x hx
              · rintro ⟨l, ⟨_, l', rfl, h1⟩, h2, rfl⟩
                exact ⟨l'.map (·.1), (ih hr).2 ⟨l', h1, fun x hx => h2 x (List.mem_cons_of_mem _ hx), rfl⟩, rfl⟩
            · rw [if_pos (by simpa using hk)]
              constructor
              · intro h; cases h
              · rintro ⟨l, ⟨h, _⟩, _⟩; exact absurd h hk

theorem tlvFind_iff (T : ExtTable) {want : Nat} (hw : 0 < want) {bs : Bytes} {l : List (Nat × Bytes)} (h : Holds bs l)
    (hl : ∀ x ∈ l, T.side x.1 = T.side want) {n : Nat} (hn : bs.length ≤ n) {v : Bytes} :
    tlvFind T want n bs = some v ↔ First want l v := by
  have none_nil : ∀ {o : Option Bytes}, o = none → (o = some v ↔ First want [] v) := by
    rintro o rfl
    constructor
    · intro h; cases h
    · intro h; cases h
  induction h generalizing n with
  | nil =>
    apply none_nil
    cases n <;> simp [tlvFind]
  | stump b =>
    apply none_nil
    cases n <;> simp [tlvFind]
  | blank rest =>
    apply none_nil
    cases n with
    | zero => rfl
    | succ n =>
      have h0 : leNat ((0 :: 0 :: rest : Bytes).take 2) = 0 := rfl
      simp only [tlvFind, h0]
      rw [if_neg (show ¬ (0 = want) by omega)]
      split <;> simp
  | @entry t u rest l a b c d ht hu hlen hm ih =>
    cases n with
    | zero => simp at hn
    | succ n =>
      have h1 : leNat ((a :: b :: c :: d :: (u ++ rest)).take 2) = t := by rw [ht]; exact leNat_two a b
      have h2 : leNat (((a :: b :: c :: d :: (u ++ rest)).drop 2).take 2) = u.length := by
        rw [hlen]; exact leNat_two c d
      have h3 : ¬ (a :: b :: c :: d :: (u ++ rest)).length < 4 := by simp
      have h4 : ¬ (a :: b :: c :: d :: (u ++ rest)).length < 4 + u.length := by
        simp only [List.length_cons, List.length_append]; omega
      have h5 : ((a :: b :: c :: d :: (u ++ rest)).drop 4).take u.length = u := by
        show (u ++ rest).take u.length = u
        rw [List.take_left]
      have h6 : (a :: b :: c :: d :: (u ++ rest)).drop (4 + u.length) = rest := by
        rw [Nat.add_comm]
        show (u ++ rest).drop u.length = rest
        rw [List.drop_left]
      simp only [tlvFind, h1, h2, if_neg h3, if_neg h4, h5, h6]
      by_cases he : t = want
      · rw [if_pos he]
        subst he
        constructor
        · intro h; cases h; exact .here
        · intro h
          cases h with
          | here => rfl
          | later o _ => exact absurd rfl o
      · rw [if_neg he, if_neg (by omega), if_neg (fun h => h (hl (t, u) List.mem_cons_self))]
        have hn' : rest.length ≤ n := by
          simp only [List.length_cons, List.length_append] at hn; omega
        refine (ih (fun x hx => hl x (List.mem_cons_of_mem _ hx)) hn').trans ?_
        constructor
        · intro h; exact .later he h
        · intro h
          cases h with
          | here => exact absurd rfl he
          | later _ h => exact h

theorem bytesAt_one (d : Bytes) (o : Nat) : Spec.bytesAt d o 1 = [Spec.byteAt d o] := rfl

theorem unpackTlv_iff {base : Nat} (hb : base ≤ 165) (kind : UInt8) {data tlv : Bytes} :
    unpackTlv base kind data = some tlv ↔ data.length ≠ 355 ∧ base ≤ data.length ∧
      ((data.length = base ∧ tlv = []) ∨
        (166 ≤ data.length ∧ (∀ i, base ≤ i → i < 165 → Spec.byteAt data i = 0) ∧ Spec.byteAt data 165 = kind ∧
          tlv = data.drop 166)) := by
  unfold unpackTlv
  by_cases h1 : data.length = 355 ∨ data.length < base
  · rw [if_pos h1]
    constructor
    · intro h; cases h
    · rintro ⟨h2, h3, _⟩
      rcases h1 with h1 | h1
      · exact absurd h1 h2
      · omega
  rw [if_neg h1]
  rw [not_or, Nat.not_lt] at h1
  obtain ⟨h1, h2⟩ := h1
  have hlen : (data.drop base).length = data.length - base := List.length_drop
  by_cases h3 : data.drop base = []
  · simp only [if_pos h3]
    rw [h3, List.length_nil] at hlen
    constructor
    · intro h; cases h; exact ⟨h1, h2, .inl ⟨by omega, rfl⟩⟩
    · rintro ⟨_, _, ⟨_, rfl⟩ | ⟨h, _⟩⟩
      · rfl
      · omega
  simp only [if_neg h3]
  have h3' : data.length ≠ base := by
    intro h
    exact h3 (List.length_eq_zero_iff.1 (by omega))
  by_cases h4 : (data.drop base).length < 165 - base + 1
  · rw [if_pos h4]
    constructor
    · intro h; cases h
    · rintro ⟨_, _, ⟨h, _⟩ | ⟨h, _⟩⟩
      · exact absurd h h3'
      · omega
  rw [if_neg h4]
  have e1 : (data.drop base).take (165 - base) = Spec.bytesAt data base (165 - base) := bytesAt_eq _ _ _ (by omega)
  have e2 : ((data.drop base).drop (165 - base)).take 1 = [Spec.byteAt data 165] := by
    rw [List.drop_drop, show base + (165 - base) = 165 by omega, bytesAt_eq _ _ _ (by omega), bytesAt_one]
  have e3 : (data.drop base).drop (165 - base + 1) = data.drop 166 := by
    rw [List.drop_drop, show base + (165 - base + 1) = 166 by omega]
  have e4 : Spec.bytesAt data base (165 - base) = List.replicate (165 - base) 0 ↔
      ∀ i, base ≤ i → i < 165 → Spec.byteAt data i = 0 := by
    rw [List.eq_replicate_iff]
    unfold Spec.bytesAt
    simp only [List.length_map, List.length_range, List.mem_map, List.mem_range, true_and]
    constructor
    · intro h i h1 h2
      exact h _ ⟨i - base, by omega, by rw [show base + (i - base) = i by omega]⟩
    · rintro h b ⟨i, hi, rfl⟩
      exact h _ (by omega) (by omega)
  rw [e1, e2, e3]
  by_cases h5 : Spec.bytesAt data base (165 - base) = List.replicate (165 - base) 0
  · rw [if_neg (fun h => h h5)]
    by_cases h6 : Spec.byteAt data 165 = kind
    · rw [if_neg (fun h => h (by rw [h6]))]
      constructor
      · intro h; cases h
        exact ⟨h1, h2, .inr ⟨by omega, e4.1 h5, h6, rfl⟩⟩
      · rintro ⟨_, _, ⟨h, _⟩ | ⟨_, _, _, rfl⟩⟩
        · exact absurd h h3'
        · rfl
    · rw [if_pos (by intro h; exact h6 (List.cons.inj h).1)]
      constructor
      · intro h; cases h
      · rintro ⟨_, _, ⟨h, _⟩ | ⟨_, _, h, _⟩⟩
        · exact absurd h h3'
        · exact absurd h h6
  · rw [if_pos h5]
    constructor
    · intro h; cases h
    · rintro ⟨_, _, ⟨h, _⟩ | ⟨_, h, _⟩⟩
      · exact absurd h h3'
      · exact absurd (e4.2 h) h5

theorem coptionTag_iff {data : Bytes} {i : Nat} (h : i + 4 ≤ data.length) :
    coptionTag ((data.drop i).take 4) = true ↔ Spec.OptionTag data i := by
  unfold Spec.OptionTag
  rw [bytesAt_eq _ _ _ h, ← leNat_eq]
  have hl : (Spec.bytesAt data i 4).length = 4 := by simp [Spec.bytesAt]
  generalize Spec.bytesAt data i 4 = b at hl
  match b, hl with
  | [w, x, y, z], _ =>
    simp only [coptionTag, Bool.or_eq_true, beq_iff_eq, List.cons.injEq, and_true, leNat]
    have key : ∀ (u : UInt8) (n : Nat), n < 256 → (u = UInt8.ofNat n ↔ u.toNat = n) := by
      intro u n hn
      rw [← UInt8.toNat_inj, UInt8.toNat_ofNat']
      omega
    have k0 : ∀ u : UInt8, u = 0 ↔ u.toNat = 0 := fun u => key u 0 (by omega)
    have k1 : ∀ u : UInt8, u = 1 ↔ u.toNat = 1 := fun u => key u 1 (by omega)
    rw [k0, k0, k0, k0, k1]
    omega

theorem byteIs_iff {data : Bytes} {i : Nat} (h : i < data.length) (b : UInt8) :
    ((data.drop i).take 1 == [b]) = true ↔ Spec.byteAt data i = b := by
  rw [bytesAt_eq _ _ _ h, bytesAt_one, beq_iff_eq, List.cons.injEq]
  simp

theorem unpackMint_iff {data tlv : Bytes} {s : Nat} :
    unpackMint data = some (s, tlv) ↔ s = Spec.numAt data 36 8 ∧ Spec.OptionTag data 0 ∧ Spec.byteAt data 45 = 1 ∧
      Spec.OptionTag data 46 ∧ unpackTlv 82 1 data = some tlv := by
  unfold unpackMint mintBase
  cases hu : unpackTlv 82 1 data with
  | none =>
    constructor
    · intro h
      split at h <;> simp_all
    · rintro ⟨_, _, _, _, h⟩; cases h
  | some u =>
    have hl := ((unpackTlv_iff (by omega) 1).1 hu).2.1
    have e0 := coptionTag_iff (data := data) (i := 0) (by omega)
    have e1 := byteIs_iff (data := data) (i := 45) (by omega) 1
    have e2 := coptionTag_iff (data := data) (i := 46) (by omega)
    rw [List.drop_zero] at e0
    have e3 : leNat ((data.drop 36).take 8) = Spec.numAt data 36 8 := by
      rw [bytesAt_eq _ _ _ (by omega), leNat_eq]
    rw [e3]
    by_cases hc : (coptionTag (data.take 4) && (data.drop 45).take 1 == [1] && coptionTag ((data.drop 46).take 4)) = true
    · rw [if_pos hc]
      rw [Bool.and_eq_true, Bool.and_eq_true, e0, e1, e2] at hc
      constructor
      · intro h; cases h; exact ⟨rfl, hc.1.1, hc.1.2, hc.2, rfl⟩
      · rintro ⟨rfl, _, _, _, h⟩; cases h; rfl
    · rw [if_neg hc]
      rw [Bool.and_eq_true, Bool.and_eq_true, e0, e1, e2] at hc
      constructor
      · intro h; cases h
      · rintro ⟨_, h1, h2, h3, _⟩; exact absurd ⟨⟨h1, h2⟩, h3⟩ hc

theorem mintData_iff {data : Bytes} {l : List (Nat × Bytes)} :
    Spec.MintData data l ↔ ∃ tlv, unpackMint data = some (Spec.numAt data 36 8, tlv) ∧ Holds tlv l := by
  constructor
  · intro h
    rcases h.entries with ⟨h1, rfl⟩ | ⟨h1, h2, h3, h4⟩
    · exact ⟨[], unpackMint_iff.2 ⟨rfl, h.authority, h.initialised, h.freezer,
        (unpackTlv_iff (by omega) 1).2 ⟨h.notMultisig, h.size, .inl ⟨h1, rfl⟩⟩⟩, .nil⟩
    · exact ⟨_, unpackMint_iff.2 ⟨rfl, h.authority, h.initialised, h.freezer,
        (unpackTlv_iff (by omega) 1).2 ⟨h.notMultisig, h.size, .inr ⟨h1, h2, h3, rfl⟩⟩⟩, h4⟩
  · rintro ⟨tlv, h, hl⟩
    obtain ⟨_, h1, h2, h3, h4⟩ := unpackMint_iff.1 h
    obtain ⟨g1, g2, g3⟩ := (unpackTlv_iff (by omega) 1).1 h4
    refine ⟨g1, g2, h1, h2, h3, ?_⟩
    rcases g3 with ⟨g3, rfl⟩ | ⟨g3, g4, g5, rfl⟩
    · exact .inl ⟨g3, hl.unique .nil⟩
    · exact .inr ⟨g3, g4, g5, hl⟩

theorem accountBase_iff {data : Bytes} (h : 165 ≤ data.length) :
    accountBase data = true ↔ Spec.OptionTag data 72 ∧ (Spec.byteAt data 108 = 1 ∨ Spec.byteAt data 108 = 2) ∧
      Spec.OptionTag data 109 ∧ Spec.OptionTag data 129 := by
  unfold accountBase
  rw [Bool.and_eq_true, Bool.and_eq_true, Bool.and_eq_true, Bool.or_eq_true, coptionTag_iff (by omega),
    coptionTag_iff (by omega), coptionTag_iff (by omega), byteIs_iff (by omega), byteIs_iff (by omega)]
  constructor
  · rintro ⟨⟨⟨a, b⟩, c⟩, d⟩; exact ⟨a, b, c, d⟩
  · rintro ⟨a, b, c, d⟩; exact ⟨⟨⟨a, b⟩, c⟩, d⟩

theorem accountData_iff {data : Bytes} {l : List (Nat × Bytes)} :
    Spec.AccountData data l ↔ accountBase data = true ∧ ∃ tlv, unpackTlv 165 2 data = some tlv ∧ Holds tlv l := by
  constructor
  · intro h
    refine ⟨(accountBase_iff h.size).2 ⟨h.delegate, h.initialised, h.native, h.closer⟩, ?_⟩
    rcases h.entries with ⟨h1, rfl⟩ | ⟨h1, h2, h3⟩
    · exact ⟨[], (unpackTlv_iff (by omega) 2).2 ⟨h.notMultisig, h.size, .inl ⟨h1, rfl⟩⟩, .nil⟩
    · exact ⟨_, (unpackTlv_iff (by omega) 2).2 ⟨h.notMultisig, h.size,
        .inr ⟨h1, fun i h1 h2 => by omega, h2, rfl⟩⟩, h3⟩
  · rintro ⟨h, tlv, h4, hl⟩
    obtain ⟨g1, g2, g3⟩ := (unpackTlv_iff (by omega) 2).1 h4
    obtain ⟨a, b, c, d⟩ := (accountBase_iff g2).1 h
    refine ⟨g1, g2, a, b, c, d, ?_⟩
    rcases g3 with ⟨g3, rfl⟩ | ⟨g3, g4, g5, rfl⟩
    · exact .inl ⟨g3, hl.unique .nil⟩
    · exact .inr ⟨g3, g5, hl⟩

theorem valueIn_iff (T : ExtTable) {want size : Nat} (hw : 0 < want) {tlv v : Bytes} {l : List (Nat × Bytes)}
    (h : Holds tlv l) (hl : ∀ x ∈ l, T.side x.1 = T.side want) :
    valueIn T want size tlv = some v ↔ First want l v ∧ v.length = size := by
  have k : ∀ u, _ := fun u => tlvFind_iff T hw h hl (Nat.le_refl _) (v := u)
  unfold valueIn
  cases hf : tlvFind T want tlv.length tlv with
  | none =>
    constructor
    · intro h; cases h
    · rintro ⟨h1, _⟩
      rw [(k v).2 h1] at hf; cases hf
  | some u =>
    have hu := (k u).1 hf
    by_cases he : u.length = size
    · simp only [if_pos he]
      constructor
      · intro h; cases h; exact ⟨hu, he⟩
      · rintro ⟨h1, _⟩
        rw [(k v).2 h1] at hf
        exact hf.symm
    · simp only [if_neg he]
      constructor
      · intro h; cases h
      · rintro ⟨h1, h2⟩
        rw [(k v).2 h1] at hf
        cases hf
        exact absurd h2 he

theorem feeConfigOf_during {v : Bytes} (h : v.length = 108) (epoch : Nat) :
    (feeConfigOf v).during epoch = Spec.feeDuring v epoch := by
  have k : ∀ o n, o + n ≤ 108 → leNat ((v.drop o).take n) = Spec.numAt v o n := by
    intro o n hn
    rw [bytesAt_eq _ _ _ (by omega), leNat_eq]
  unfold Spec.feeDuring feeConfigOf epochFeeAt FeeConfig.during
  simp only [k _ _ (show 72 + 8 ≤ 108 by omega), k _ _ (show 72 + 8 + 8 ≤ 108 by omega),
    k _ _ (show 72 + 16 + 2 ≤ 108 by omega), k _ _ (show 90 + 8 ≤ 108 by omega),
    k _ _ (show 90 + 8 + 8 ≤ 108 by omega), k _ _ (show 90 + 16 + 2 ≤ 108 by omega)]

end Verif
