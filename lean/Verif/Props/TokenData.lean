import Verif.Lemmas.TokenData
import Verif.Lemmas.Accept
/-!
# C88: what the program reads of a mint and of a token account

`token2022.rs` decides on the raw bytes of a mint whether a sale may use it, which fee a transfer costs and whether a
hook is run. These theorems are about the bytes, whatever they are, and about any table of extension types that has
those the program names.
-/

namespace Verif
open Spec (Holds First MintData AccountData Harmless)

theorem Spec.Harmless.side (T : ExtTable) {t : Nat} (h : Harmless t) : T.side t = some .mint := by
  rcases h with rfl | rfl | rfl | rfl
  · exact T.fee
  · exact T.hook
  · exact T.pointer
  · exact T.metadata

theorem harmless_iff {t : Nat} : (!(t != 1 && t != 18 && t != 19 && t != 14)) = true ↔ Harmless t := by
  unfold Harmless
  simp only [Bool.not_eq_true', Bool.and_eq_false_iff, bne_eq_false_iff_eq]
  constructor
  · rintro (((h | h) | h) | h) <;> simp [h]
  · rintro (h | h | h | h) <;> simp [h]

/-- The data of an account holds one list of entries at most. -/
theorem C88_unique {data : Bytes} {l l' : List (Nat × Bytes)} (h : MintData data l) (h' : MintData data l') :
    l = l' := by
  obtain ⟨tlv, e, k⟩ := mintData_iff.1 h
  obtain ⟨tlv', e', k'⟩ := mintData_iff.1 h'
  rw [e] at e'
  cases e'
  exact k.unique k'

/-- Which data the extension test of a Token-2022 mint can read at all, and its answer. -/
theorem C88_answer (T : ExtTable) (data : Bytes) (b : Bool) :
    isSupportedData T .splToken2022 false data = some b ↔
      ∃ l, MintData data l ∧ (∀ x ∈ l, T.side x.1 ≠ none) ∧ (b = true ↔ ∀ x ∈ l, Harmless x.1) := by
  have e : isSupportedData T .splToken2022 false data = match unpackMint data with
      | none => none
      | some (_, tlv) => match typesIn T tlv with
        | none => none
        | some ts => some (ts.all fun e => !(e != 1 && e != 18 && e != 19 && e != 14)) := rfl
  rw [e]
  have key : ∀ l : List (Nat × Bytes), ((l.map (·.1)).all fun e => !(e != 1 && e != 18 && e != 19 && e != 14)) = true ↔
      ∀ x ∈ l, Harmless x.1 := by
    intro l
    rw [List.all_eq_true]
    simp only [List.mem_map, forall_exists_index, and_imp, forall_apply_eq_imp_iff₂]
    constructor
    · intro h x hx; exact harmless_iff.1 (h x hx)
    · intro h x hx; exact harmless_iff.2 (h x hx)
  constructor
  · intro h
    cases hu : unpackMint data with
    | none => rw [hu] at h; cases h
    | some x =>
      obtain ⟨s, tlv⟩ := x
      rw [hu] at h
      cases ht : typesIn T tlv with
      | none => simp only [ht] at h; cases h
      | some ts =>
        simp only [ht] at h
        obtain ⟨l, h1, h2, rfl⟩ := (tlvTypes_iff T (Nat.le_refl _)).1 ht
        have hs := (unpackMint_iff.1 hu).1
        subst hs
        refine ⟨l, mintData_iff.2 ⟨tlv, hu, h1⟩, h2, ?_⟩
        rw [← key]
        cases h
        rfl
  · rintro ⟨l, h1, h2, h3⟩
    obtain ⟨tlv, hu, hh⟩ := mintData_iff.1 h1
    have ht : typesIn T tlv = some (l.map (·.1)) := (tlvTypes_iff T (Nat.le_refl _)).2 ⟨l, hh, h2, rfl⟩
    rw [hu]
    simp only [ht]
    congr 1
    rw [← key] at h3
    exact (Bool.eq_iff_iff.2 h3).symm

/-- A mint is accepted exactly if it is of the old token program, or of the new one, not the native mint, and its data
is that of an initialised mint all of whose entries, to the last, are transfer fee, transfer hook, metadata pointer or
metadata. It does not matter which other extension types the version of the library knows. -/
theorem C88_accepts (T : ExtTable) (program : TokenProgram) (native : Bool) (data : Bytes) :
    isSupportedData T program native data = some true ↔
      program = .splToken ∨ (native = false ∧ ∃ l, MintData data l ∧ ∀ x ∈ l, Harmless x.1) := by
  cases program with
  | splToken => simp [isSupportedData]
  | splToken2022 =>
    cases native with
    | true => simp [isSupportedData]
    | false =>
      rw [C88_answer]
      simp only [reduceCtorEq, false_or, true_and]
      constructor
      · rintro ⟨l, h1, _, h3⟩; exact ⟨l, h1, h3.1 trivial⟩
      · rintro ⟨l, h1, h2⟩
        exact ⟨l, h1, fun x hx => by rw [(h2 x hx).side T]; simp, fun _ => h2, fun _ => trivial⟩

/-- No extension can be hidden: an entry of any other type, wherever it is, keeps the mint out. -/
theorem C88_nothing_hidden (T : ExtTable) (native : Bool) {data : Bytes} {l : List (Nat × Bytes)} (h : MintData data l)
    {x : Nat × Bytes} (hx : x ∈ l) (hb : ¬ Harmless x.1) : isSupportedData T .splToken2022 native data ≠ some true := by
  intro hs
  rcases (C88_accepts T _ native data).1 hs with h1 | ⟨_, l', h1, h2⟩
  · cases h1
  · rw [C88_unique h1 h] at h2
    exact hb (h2 x hx)

/-- The fee of an accepted mint is the one its first fee entry records for the epoch. -/
theorem C88_fee (T : ExtTable) (epoch : Nat) {data : Bytes} {l : List (Nat × Bytes)} (h : MintData data l)
    (hl : ∀ x ∈ l, Harmless x.1) (r : Option TransferFee) :
    epochFeeData T .splToken2022 epoch data = some r ↔
      (∃ v, First 1 l v ∧ v.length = 108 ∧ r = some (Spec.feeDuring v epoch)) ∨
        ((¬ ∃ v, First 1 l v ∧ v.length = 108) ∧ r = none) := by
  obtain ⟨tlv, hu, hh⟩ := mintData_iff.1 h
  have e : epochFeeData T .splToken2022 epoch data = some ((feeConfigIn T tlv).map (·.during epoch)) := by
    show (unpackMint data).map _ = _
    rw [hu]
    rfl
  rw [e]
  have k : ∀ v, _ := fun v => valueIn_iff T (want := 1) (size := 108) (by omega) hh (v := v)
    (fun x hx => by rw [(hl x hx).side T, T.fee])
  unfold feeConfigIn
  cases hv : valueIn T 1 108 tlv with
  | none =>
    have hno : ¬ ∃ v, First 1 l v ∧ v.length = 108 := by
      rintro ⟨v, h1⟩
      rw [(k v).2 h1] at hv; cases hv
    constructor
    · intro h; cases h; exact .inr ⟨hno, rfl⟩
    · rintro (⟨v, h1, h2, _⟩ | ⟨_, rfl⟩)
      · exact absurd ⟨v, h1, h2⟩ hno
      · rfl
  | some v =>
    obtain ⟨h1, h2⟩ := (k v).1 hv
    show some (some ((feeConfigOf v).during epoch)) = some r ↔ _
    rw [feeConfigOf_during h2]
    constructor
    · intro h; cases h; exact .inl ⟨v, h1, h2, rfl⟩
    · rintro (⟨u, g1, g2, rfl⟩ | ⟨hno, _⟩)
      · rw [(k u).2 ⟨g1, g2⟩] at hv
        cases hv; rfl
      · exact absurd ⟨v, h1, h2⟩ hno

/-- The hook program of an accepted mint is the second half of its first hook entry, unless that is all zero. -/
theorem C88_hook (T : ExtTable) {data : Bytes} {l : List (Nat × Bytes)} (h : MintData data l)
    (hl : ∀ x ∈ l, Harmless x.1) (r : Option Bytes) :
    hookData T .splToken2022 data = some r ↔
      (∃ v, First 14 l v ∧ v.length = 64 ∧ Spec.bytesAt v 32 32 ≠ List.replicate 32 0 ∧ r = some (Spec.bytesAt v 32 32)) ∨
        ((¬ ∃ v, First 14 l v ∧ v.length = 64 ∧ Spec.bytesAt v 32 32 ≠ List.replicate 32 0) ∧ r = none) := by
  obtain ⟨tlv, hu, hh⟩ := mintData_iff.1 h
  have e : hookData T .splToken2022 data = some (hookIn T tlv) := by
    show (unpackMint data).map _ = _
    rw [hu]
    rfl
  rw [e]
  have k : ∀ v, _ := fun v => valueIn_iff T (want := 14) (size := 64) (by omega) hh (v := v)
    (fun x hx => by rw [(hl x hx).side T, T.hook])
  have d : ∀ v : Bytes, v.length = 64 → v.drop 32 = Spec.bytesAt v 32 32 := by
    intro v hv
    rw [← bytesAt_eq _ _ _ (by omega), List.take_of_length_le (by rw [List.length_drop]; omega)]
  unfold hookIn
  cases hv : valueIn T 14 64 tlv with
  | none =>
    have hno : ¬ ∃ v, First 14 l v ∧ v.length = 64 ∧ Spec.bytesAt v 32 32 ≠ List.replicate 32 0 := by
      rintro ⟨v, h1, h2, _⟩
      rw [(k v).2 ⟨h1, h2⟩] at hv; cases hv
    constructor
    · intro h; cases h; exact .inr ⟨hno, rfl⟩
    · rintro (⟨v, h1, h2, h3, _⟩ | ⟨_, rfl⟩)
      · exact absurd ⟨v, h1, h2, h3⟩ hno
      · rfl
  | some v =>
    obtain ⟨h1, h2⟩ := (k v).1 hv
    have uni : ∀ u, First 14 l u → u.length = 64 → u = v := by
      intro u g1 g2
      rw [(k u).2 ⟨g1, g2⟩] at hv
      cases hv; rfl
    simp only [d v h2]
    by_cases hz : Spec.bytesAt v 32 32 = List.replicate 32 0
    · rw [if_pos hz]
      constructor
      · intro h; cases h
        refine .inr ⟨?_, rfl⟩
        rintro ⟨u, g1, g2, g3⟩
        rw [uni u g1 g2] at g3
        exact g3 hz
      · rintro (⟨u, g1, g2, g3, _⟩ | ⟨_, rfl⟩)
        · rw [uni u g1 g2] at g3
          exact absurd hz g3
        · rfl
    · rw [if_neg hz]
      constructor
      · intro h; cases h
        exact .inl ⟨v, h1, h2, hz, rfl⟩
      · rintro (⟨u, g1, g2, _, rfl⟩ | ⟨hno, _⟩)
        · rw [uni u g1 g2]
        · exact absurd ⟨v, h1, h2, hz⟩ hno

theorem first_effective {t : Nat} (h1 : t ≠ 18) (h2 : t ≠ 19) {l : List (Nat × Bytes)} {v : Bytes} :
    First t l v ↔ First t (Spec.effective l) v := by
  induction l with
  | nil => exact Iff.rfl
  | cons x l ih =>
    obtain ⟨s, u⟩ := x
    by_cases he : s ≠ 18 ∧ s ≠ 19
    · have e : Spec.effective ((s, u) :: l) = (s, u) :: Spec.effective l := by
        unfold Spec.effective
        rw [List.filter_cons_of_pos (by simpa using he)]
      rw [e]
      constructor
      · intro h
        cases h with
        | here => exact .here
        | later o h => exact .later o (ih.1 h)
      · intro h
        cases h with
        | here => exact .here
        | later o h => exact .later o (ih.2 h)
    · have e : Spec.effective ((s, u) :: l) = Spec.effective l := by
        unfold Spec.effective
        rw [List.filter_cons_of_neg (by simpa using he)]
      rw [e, ← ih]
      have hs : s ≠ t := by
        rintro rfl
        exact he ⟨h1, h2⟩
      constructor
      · intro h
        cases h with
        | here => exact absurd rfl hs
        | later _ h => exact h
      · intro h; exact .later hs h

/-- Metadata does not matter: two mints with the same other entries, in the same order, are accepted alike and have the
same fee in every epoch and the same hook. -/
theorem C88_metadata_inert (T : ExtTable) {data data' : Bytes} {l l' : List (Nat × Bytes)} (h : MintData data l)
    (h' : MintData data' l') (he : Spec.effective l = Spec.effective l') (native : Bool) :
    (isSupportedData T .splToken2022 native data = some true ↔
        isSupportedData T .splToken2022 native data' = some true) ∧
      (isSupportedData T .splToken2022 native data = some true →
        (∀ epoch, epochFeeData T .splToken2022 epoch data = epochFeeData T .splToken2022 epoch data') ∧
          hookData T .splToken2022 data = hookData T .splToken2022 data') := by
  have mem : ∀ l : List (Nat × Bytes), (∀ x ∈ l, Harmless x.1) ↔ ∀ x ∈ Spec.effective l, Harmless x.1 := by
    intro l
    unfold Spec.effective
    constructor
    · intro k x hx; exact k x (List.mem_filter.1 hx).1
    · intro k x hx
      by_cases hc : x.1 ≠ 18 ∧ x.1 ≠ 19
      · exact k x (List.mem_filter.2 ⟨hx, by simpa using hc⟩)
      · rcases Decidable.em (x.1 = 18) with g | g
        · exact .inr (.inr (.inl g))
        · exact .inr (.inr (.inr (Decidable.byContradiction fun g' => hc ⟨g, g'⟩)))
  have harm : (∀ x ∈ l, Harmless x.1) ↔ ∀ x ∈ l', Harmless x.1 := by rw [mem l, mem l', he]
  have acc : ∀ {d : Bytes} {k : List (Nat × Bytes)}, MintData d k →
      (isSupportedData T .splToken2022 native d = some true ↔ native = false ∧ ∀ x ∈ k, Harmless x.1) := by
    intro d k hk
    rw [C88_accepts]
    simp only [reduceCtorEq, false_or]
    constructor
    · rintro ⟨g, k', g1, g2⟩
      rw [C88_unique g1 hk] at g2
      exact ⟨g, g2⟩
    · rintro ⟨g, g2⟩; exact ⟨g, k, hk, g2⟩
  refine ⟨by rw [acc h, acc h', harm], fun hs => ?_⟩
  have hl := ((acc h).1 hs).2
  have hl' := harm.1 hl
  have f1 : ∀ v, First 1 l v ↔ First 1 l' v := fun v => by
    rw [first_effective (by omega) (by omega), he, ← first_effective (by omega) (by omega)]
  have f14 : ∀ v, First 14 l v ↔ First 14 l' v := fun v => by
    rw [first_effective (by omega) (by omega), he, ← first_effective (by omega) (by omega)]
  constructor
  · intro epoch
    obtain ⟨tlv, hu, _⟩ := mintData_iff.1 h
    have e : epochFeeData T .splToken2022 epoch data = some ((feeConfigIn T tlv).map (·.during epoch)) := by
      show (unpackMint data).map _ = _
      rw [hu]; rfl
    have := (C88_fee T epoch h hl _).1 e
    simp only [f1] at this
    rw [e, (C88_fee T epoch h' hl' _).2 this]
  · obtain ⟨tlv, hu, _⟩ := mintData_iff.1 h
    have e : hookData T .splToken2022 data = some (hookIn T tlv) := by
      show (unpackMint data).map _ = _
      rw [hu]; rfl
    have := (C88_hook T h hl _).1 e
    simp only [f14] at this
    rw [e, (C88_hook T h' hl' _).2 this]

theorem extSupported_extOf (t : Nat) : extSupported (extOf t) = !(t != 1 && t != 18 && t != 19 && t != 14) := by
  unfold extOf
  by_cases h1 : t = 1
  · subst h1; rfl
  by_cases h2 : t = 14
  · subst h2; rfl
  by_cases h3 : t = 18
  · subst h3; rfl
  by_cases h4 : t = 19
  · subst h4; rfl
  rw [if_neg h1, if_neg h2, if_neg h3, if_neg h4]
  unfold extSupported
  rw [bne_iff_ne.2 (show Ext.other t ≠ .transferFeeConfig by simp),
    bne_iff_ne.2 (show Ext.other t ≠ .metadataPointer by simp),
    bne_iff_ne.2 (show Ext.other t ≠ .tokenMetadata by simp), bne_iff_ne.2 (show Ext.other t ≠ .transferHook by simp),
    bne_iff_ne.2 h1, bne_iff_ne.2 h2, bne_iff_ne.2 h3, bne_iff_ne.2 h4]

/-- The mints of the ledger are such data: what the other theorems assume of a mint is what the program reads. -/
theorem C88_ledger (T : ExtTable) (K : Keys) {program : TokenProgram} {native : Bool} {epoch : Nat} {data : Bytes}
    {m : MintInfo} (h : mintOf T K program native epoch data = some m) :
    m.program = program ∧ m.isNative = native ∧ m.supply = Spec.numAt data 36 8 ∧
      isSupportedData T program native data = some (isSupportedMint m) ∧
      epochFeeData T program epoch data = some m.epochFee ∧
      (hookData T program data).map (Option.map K.dec) = some m.hookProgram := by
  unfold mintOf at h
  cases hu : unpackMint data with
  | none => rw [hu] at h; cases h
  | some x =>
    obtain ⟨s, tlv⟩ := x
    rw [hu] at h
    cases ht : typesIn T tlv with
    | none => simp only [ht] at h; cases h
    | some ts =>
      simp only [ht] at h
      cases h
      refine ⟨rfl, rfl, (unpackMint_iff.1 hu).1, ?_, ?_, ?_⟩
      · unfold isSupportedData isSupportedMint
        by_cases hp : program = .splToken
        · rw [if_pos hp, if_pos hp]
        rw [if_neg hp, if_neg hp]
        cases native with
        | true => rfl
        | false =>
          simp only [hu, ht, Bool.false_eq_true, if_false]
          congr 1
          rw [List.all_map]
          congr 1
          funext t
          exact (extSupported_extOf t).symm
      · unfold epochFeeData
        cases program with
        | splToken => rfl
        | splToken2022 => rw [if_neg (by simp), hu]; rfl
      · unfold hookData
        cases program with
        | splToken => rfl
        | splToken2022 => rw [if_neg (by simp), hu]; rfl

/-- Adding and editing metadata is a change of the mint the environment may make (`Ext.grown`), with the same fee and
the same hook. -/
theorem C88_grown (T : ExtTable) (K : Keys) {native : Bool} {epoch : Nat} {data data' : Bytes} {l l' : List (Nat × Bytes)}
    {m m' : MintInfo} (h : MintData data l) (h' : MintData data' l') (hs : isSupportedMint m = true)
    (hm : mintOf T K .splToken2022 native epoch data = some m) (hm' : mintOf T K .splToken2022 native epoch data' = some m')
    (he : Spec.effective l = Spec.effective l') (keep : ∀ x ∈ l, ∃ y ∈ l', y.1 = x.1)
    (new : ∀ y ∈ l', y.1 = 19 ∨ ∃ x ∈ l, x.1 = y.1) :
    Ext.grown m'.exts m.exts ∧ m'.fee = m.fee ∧ m'.hook = m.hook ∧ m'.program = m.program ∧
      m'.isNative = m.isNative := by
  have exts : ∀ {d : Bytes} {k : List (Nat × Bytes)} {n : MintInfo}, MintData d k →
      mintOf T K .splToken2022 native epoch d = some n → n.exts = k.map fun x => extOf x.1 := by
    intro d k n hk hn
    obtain ⟨tlv, hu, hh⟩ := mintData_iff.1 hk
    unfold mintOf at hn
    rw [hu] at hn
    cases ht : typesIn T tlv with
    | none => simp only [ht] at hn; cases hn
    | some ts =>
      simp only [ht] at hn
      cases hn
      obtain ⟨k', h1, _, rfl⟩ := (tlvTypes_iff T (Nat.le_refl _)).1 ht
      rw [h1.unique hh]
      simp only [List.map_map]
      rfl
  obtain ⟨p1, n1, _, s1, f1, k1⟩ := C88_ledger T K hm
  obtain ⟨p2, n2, _, _, f2, k2⟩ := C88_ledger T K hm'
  rw [hs] at s1
  obtain ⟨hf, hh⟩ := (C88_metadata_inert T h h' he native).2 s1
  refine ⟨⟨?_, ?_⟩, ?_, ?_, by rw [p1, p2], by rw [n1, n2]⟩
  · rw [exts h hm, exts h' hm']
    intro e hx
    obtain ⟨x, hx', rfl⟩ := List.mem_map.1 hx
    obtain ⟨y, hy, g⟩ := keep x hx'
    exact List.mem_map.2 ⟨y, hy, by rw [g]⟩
  · rw [exts h hm, exts h' hm']
    intro e hx
    obtain ⟨y, hy, rfl⟩ := List.mem_map.1 hx
    rcases new y hy with g | ⟨x, hx, g⟩
    · right; rw [g]; rfl
    · left; exact List.mem_map.2 ⟨x, hx, by rw [g]⟩
  · have := hf epoch
    rw [f1, f2, Option.some.injEq] at this
    simpa [MintInfo.epochFee, p1, p2] using this.symm
  · rw [← hh, k1, Option.some.injEq] at k2
    simpa [MintInfo.hookProgram, p1, p2] using k2.symm

theorem holds_zeros (k : Nat) : Holds (List.replicate k 0) [] := by
  match k with
  | 0 => exact .nil
  | 1 => exact .stump 0
  | k + 2 => exact .blank _

theorem two_bytes {n : Nat} (h : n < 65536) : (UInt8.ofNat n).toNat + 256 * (UInt8.ofNat (n / 256)).toNat = n := by
  rw [UInt8.toNat_ofNat', UInt8.toNat_ofNat']
  omega

theorem holds_written {l : List (Nat × Bytes)} (hl : ∀ x ∈ l, 0 < x.1 ∧ x.1 < 65536 ∧ x.2.length < 65536) (k : Nat) :
    Holds (Spec.written l ++ List.replicate k 0) l := by
  induction l with
  | nil => exact holds_zeros k
  | cons x l ih =>
    obtain ⟨t, v⟩ := x
    obtain ⟨h1, h2, h3⟩ := hl (t, v) List.mem_cons_self
    have := Holds.entry (UInt8.ofNat t) (UInt8.ofNat (t / 256)) (UInt8.ofNat v.length) (UInt8.ofNat (v.length / 256))
      (two_bytes h2).symm h1 (two_bytes h3).symm (ih fun x hx => hl x (List.mem_cons_of_mem _ hx))
    simpa [Spec.written] using this

theorem byteAt_append_left {a b : Bytes} {i : Nat} (h : i < a.length) : Spec.byteAt (a ++ b) i = Spec.byteAt a i := by
  unfold Spec.byteAt
  rw [List.getD_eq_getElem?_getD, List.getD_eq_getElem?_getD, List.getElem?_append_left h]

theorem byteAt_append_right (a b : Bytes) (i : Nat) : Spec.byteAt (a ++ b) (a.length + i) = Spec.byteAt b i := by
  unfold Spec.byteAt
  rw [List.getD_eq_getElem?_getD, List.getD_eq_getElem?_getD, List.getElem?_append_right (by omega), Nat.add_sub_cancel_left]

theorem optionTag_append_left {a b : Bytes} {i : Nat} (h : i + 4 ≤ a.length) :
    Spec.OptionTag (a ++ b) i ↔ Spec.OptionTag a i := by
  unfold Spec.OptionTag
  rw [← leNat_eq, ← leNat_eq, ← bytesAt_eq _ _ _ h, ← bytesAt_eq _ _ _ (by rw [List.length_append]; omega),
    List.drop_append_of_le_length (by omega), List.take_append_of_le_length (by rw [List.length_drop]; omega)]

/-- A mint as Token-2022 writes it is read back entry by entry: an initialised base state, the padding, the byte of a
mint, the entries, and any number of empty bytes unless the length is that of a multisig (where Token-2022 adds two). -/
theorem C88_written {base : Bytes} (hb : MintData base []) (h82 : base.length = 82) {l : List (Nat × Bytes)}
    (hl : ∀ x ∈ l, 0 < x.1 ∧ x.1 < 65536 ∧ x.2.length < 65536) (k : Nat)
    (hk : (Spec.written l).length + k ≠ 189) :
    MintData (base ++ (List.replicate 83 0 ++ 1 :: (Spec.written l ++ List.replicate k 0))) l := by
  have len : (base ++ (List.replicate 83 0 ++ 1 :: (Spec.written l ++ List.replicate k 0))).length =
      166 + ((Spec.written l).length + k) := by
    simp only [List.length_append, List.length_replicate, List.length_cons, h82]; omega
  refine ⟨by omega, by omega, (optionTag_append_left (by omega)).2 hb.authority, ?_,
    (optionTag_append_left (by omega)).2 hb.freezer, .inr ⟨by omega, ?_, ?_, ?_⟩⟩
  · rw [byteAt_append_left (by omega)]; exact hb.initialised
  · intro i h1 h2
    rw [show i = base.length + (i - 82) by omega, byteAt_append_right,
      byteAt_append_left (by rw [List.length_replicate]; omega)]
    unfold Spec.byteAt
    rw [List.getD_eq_getElem?_getD, List.getElem?_replicate]
    split <;> rfl
  · rw [show 165 = base.length + 83 by omega, byteAt_append_right]
    rfl
  · have : (base ++ (List.replicate 83 0 ++ 1 :: (Spec.written l ++ List.replicate k 0))).drop 166 =
        Spec.written l ++ List.replicate k 0 := by
      rw [show 166 = base.length + 84 by omega, ← List.drop_drop, List.drop_left]
      rfl
    rw [this]
    exact holds_written hl k

/-- A token account asks for memos exactly if its first memo entry, of one byte, is not zero. -/
theorem C88_memo (T : ExtTable) {data : Bytes} {l : List (Nat × Bytes)} (h : AccountData data l)
    (hl : ∀ x ∈ l, T.side x.1 = some .account) (b : Bool) :
    memoRequiredData T .splToken2022 data = some b ↔ (b = true ↔ ∃ c, First 8 l [c] ∧ c ≠ 0) := by
  obtain ⟨ha, tlv, hu, hh⟩ := accountData_iff.1 h
  have k : ∀ v, _ := fun v => valueIn_iff T (want := 8) (size := 1) (by omega) hh (v := v)
    (fun x hx => by rw [hl x hx, T.memo])
  have e : memoRequiredData T .splToken2022 data = match valueIn T 8 1 tlv with
      | some v => some (v != [0])
      | none => some false := by
    unfold memoRequiredData
    rw [if_neg (by simp), if_pos ha, hu]
    rfl
  rw [e]
  cases hv : valueIn T 8 1 tlv with
  | none =>
    have hno : ¬ ∃ c, First 8 l [c] ∧ c ≠ 0 := by
      rintro ⟨c, h1, _⟩
      rw [(k [c]).2 ⟨h1, rfl⟩] at hv; cases hv
    cases b <;> simp [hno]
  | some v =>
    obtain ⟨h1, h2⟩ := (k v).1 hv
    obtain ⟨c, rfl⟩ := List.length_eq_one_iff.1 h2
    have hc : (∃ c, First 8 l [c] ∧ c ≠ 0) ↔ c ≠ 0 := by
      constructor
      · rintro ⟨c', g1, g2⟩
        rw [(k [c']).2 ⟨g1, rfl⟩] at hv
        cases hv; exact g2
      · intro g; exact ⟨c, h1, g⟩
    rw [hc]
    by_cases g : c = 0
    · subst g; cases b <;> simp
    · have : (([c] : Bytes) != [0]) = true := bne_iff_ne.2 (by simpa using g)
      simp only [this]
      cases b <;> simp [g]

/-- Data that is no initialised token account is an error. -/
theorem C88_memo_error (T : ExtTable) {data : Bytes} (h : memoRequiredData T .splToken2022 data = none) :
    ∀ l, ¬ AccountData data l := by
  intro l hl
  obtain ⟨ha, tlv, hu, _⟩ := accountData_iff.1 hl
  unfold memoRequiredData at h
  rw [if_neg (by simp), if_pos ha, hu] at h
  simp only at h
  split at h <;> cases h

/-! ## Examples -/

namespace Ex

/-- Extension types known to one version of the library. -/
def table : ExtTable where
  side := fun t =>
    if t ∈ [1, 3, 4, 6, 9, 10, 12, 14, 16, 18, 19, 20, 21, 22, 23, 24] then some .mint
    else if t ∈ [2, 5, 7, 8, 11, 13, 15, 17] then some .account else none
  fee := rfl
  hook := rfl
  pointer := rfl
  metadata := rfl
  memo := rfl

/-- A mint of 1000 tokens with an authority. -/
def mintBytes : Bytes :=
  [1, 0, 0, 0] ++ List.replicate 32 9 ++ [232, 3, 0, 0, 0, 0, 0, 0] ++ [6, 1] ++ List.replicate 36 0

/-- A fee of 1 per cent, 3 at most, until epoch 256, then 2 per cent, 5 at most. -/
def feeBytes : Bytes :=
  List.replicate 72 0 ++ ([7, 0, 0, 0, 0, 0, 0, 0] ++ [3, 0, 0, 0, 0, 0, 0, 0] ++ [100, 0]) ++
    ([0, 1, 0, 0, 0, 0, 0, 0] ++ [5, 0, 0, 0, 0, 0, 0, 0] ++ [200, 0])

/-- A hook program of all sevens. -/
def hookBytes : Bytes := List.replicate 32 0 ++ List.replicate 32 7

/-- A mint with these entries. -/
def mintWith (l : List (Nat × Bytes)) : Bytes :=
  mintBytes ++ (List.replicate 83 0 ++ 1 :: (Spec.written l ++ List.replicate 0 0))

/-- Pointer, fee, hook and metadata. -/
def goodEntries : List (Nat × Bytes) := [(18, List.replicate 64 1), (1, feeBytes), (14, hookBytes), (19, [65, 66])]

theorem mintBytes_data : MintData mintBytes [] :=
  ⟨by decide, by decide, by unfold Spec.OptionTag; decide, by decide, by unfold Spec.OptionTag; decide,
    .inl ⟨by decide, rfl⟩⟩

theorem good_data : MintData (mintWith goodEntries) goodEntries :=
  C88_written mintBytes_data (by decide +kernel) (by decide +kernel) 0 (by decide +kernel)

theorem good_harmless : ∀ x ∈ goodEntries, Harmless x.1 := by
  unfold Harmless
  decide

/-- It is accepted. -/
example : isSupportedData table .splToken2022 false (mintWith goodEntries) = some true :=
  (C88_accepts _ _ _ _).2 (.inr ⟨rfl, _, good_data, good_harmless⟩)

/-- Its fee changes at epoch 256. -/
example : epochFeeData table .splToken2022 255 (mintWith goodEntries) =
      some (some { maximumFee := 3, basisPoints := 100 }) ∧
    epochFeeData table .splToken2022 256 (mintWith goodEntries) = some (some { maximumFee := 5, basisPoints := 200 }) :=
  ⟨(C88_fee table 255 good_data good_harmless _).2 (.inl ⟨feeBytes, .later (by decide) .here, by decide, by decide⟩),
    (C88_fee table 256 good_data good_harmless _).2 (.inl ⟨feeBytes, .later (by decide) .here, by decide, by decide⟩)⟩

/-- Its hook is found. -/
example : hookData table .splToken2022 (mintWith goodEntries) = some (some (List.replicate 32 7)) :=
  (C88_hook table good_data good_harmless _).2
    (.inl ⟨hookBytes, .later (by decide) (.later (by decide) .here), by decide, by decide, by decide⟩)

/-- A permanent delegate (12) behind the others is not overlooked. -/
example : isSupportedData table .splToken2022 false (mintWith (goodEntries ++ [(12, List.replicate 32 5)])) ≠ some true :=
  C88_nothing_hidden table false (C88_written mintBytes_data (by decide +kernel) (by decide +kernel) 0 (by decide +kernel))
    (x := (12, List.replicate 32 5)) (by decide) (by unfold Harmless; decide)

/-- Without pointer and with other metadata nothing changes. -/
example (e : Nat) : epochFeeData table .splToken2022 e (mintWith goodEntries) =
    epochFeeData table .splToken2022 e (mintWith [(19, [66]), (1, feeBytes), (14, hookBytes)]) :=
  ((C88_metadata_inert table good_data (C88_written mintBytes_data (by decide +kernel) (by decide +kernel) 0 (by decide +kernel)) (by decide)
    false).2 ((C88_accepts _ _ _ _).2 (.inr ⟨rfl, _, good_data, good_harmless⟩))).1 e

/-- A token account that asks for memos, behind an entry of an immutable owner (7). -/
def memoAccount (c : UInt8) : Bytes :=
  List.replicate 108 0 ++ 1 :: List.replicate 56 0 ++ 2 :: [7, 0, 0, 0, 8, 0, 1, 0, c]

theorem memoAccount_holds (c : UInt8) : Holds [7, 0, 0, 0, 8, 0, 1, 0, c] [(7, []), (8, [c])] :=
  Holds.entry (v := []) 7 0 0 0 rfl (by decide) rfl
    (Holds.entry (v := [c]) (rest := []) 8 0 1 0 rfl (by decide) rfl .nil)

theorem memoAccount_one : AccountData (memoAccount 1) [(7, []), (8, [1])] :=
  accountData_iff.2 ⟨by decide +kernel, _, by decide +kernel, memoAccount_holds 1⟩

theorem memoAccount_zero : AccountData (memoAccount 0) [(7, []), (8, [0])] :=
  accountData_iff.2 ⟨by decide +kernel, _, by decide +kernel, memoAccount_holds 0⟩

example : memoRequiredData table .splToken2022 (memoAccount 1) = some true ∧
    memoRequiredData table .splToken2022 (memoAccount 0) = some false := by
  refine ⟨(C88_memo table memoAccount_one (by decide) true).2 ⟨fun _ => ⟨1, .later (by decide) .here, by decide⟩,
    fun _ => rfl⟩, (C88_memo table memoAccount_zero (by decide) false).2 ⟨fun h => absurd h (by decide), fun h => ?_⟩⟩
  obtain ⟨c, h, hc⟩ := h
  cases h with
  | later _ h => cases h with
    | here => exact absurd rfl hc
    | later o _ => exact absurd rfl o

end Ex

end Verif
