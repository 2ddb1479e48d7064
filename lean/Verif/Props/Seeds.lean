import Verif.Model.Seeds
import Verif.Lemmas.Fits
import Verif.Props.Layout
/-!
# C65: addresses

The model's addresses are symbols, and different symbols are different. Here that is derived from the seeds the program
uses: two different symbols never hash the same string, so different addresses could coincide only through a hash
collision.
-/

namespace Verif
open Spec Codec

namespace Spec

/-- The addresses from which an address is derived. -/
def parts : Addr → List Addr
  | .key _ => []
  | .presaleAuthority => []
  | .presale b m q => [b, m, q]
  | .baseVault p => [p]
  | .quoteVault p => [p]
  | .fixedPriceArgs p => [p]
  | .escrow p o _ => [p, o]
  | .merkleRoot p _ => [p]
  | .operator c o => [c, o]
  | .serverMetadata p => [p]
  | .ata o m _ => [o, m]

/-- The numbers in the seeds fit their types: `u8` registry index, `u64` root version. -/
def seedsFit : Addr → Prop
  | .escrow _ _ i => i < 2 ^ 8
  | .merkleRoot _ v => v < 2 ^ 64
  | _ => True

/-- The hash and the keys are not exceptional on the addresses in question: different hashed strings have different
hashes, no hash is the string of a key, different keys have different strings, the two token programs differ. -/
structure NoCollision (E : AddrEnv) (S : Addr → Prop) : Prop where
  hash : ∀ a b x y, S a → S b → E.message a = some x → E.message b = some y → E.hash x = E.hash y → x = y
  keys : ∀ n m, S (.key n) → S (.key m) → E.keyBytes n = E.keyBytes m → n = m
  mixed : ∀ n a x, S (.key n) → S a → E.message a = some x → E.keyBytes n ≠ E.hash x
  programs : E.splTokenId ≠ E.token2022Id

/-- The seeds of each derived address one by one, the constants as bytes, and the program it is derived for. -/
def derivation (E : AddrEnv) : Addr → Option (List Bytes × Bytes)
  | .key _ => none
  | .presaleAuthority =>
    some ([[112, 114, 101, 115, 97, 108, 101, 95, 97, 117, 116, 104, 111, 114, 105, 116, 121]], E.programId)
  | .presale b m q =>
    some ([[112, 114, 101, 115, 97, 108, 101], E.bytes b, E.bytes m, E.bytes q], E.programId)
  | .baseVault p =>
    some ([[98, 97, 115, 101, 95, 118, 97, 117, 108, 116], E.bytes p], E.programId)
  | .quoteVault p =>
    some ([[113, 117, 111, 116, 101, 95, 118, 97, 117, 108, 116], E.bytes p], E.programId)
  | .fixedPriceArgs p =>
    some ([[102, 105, 120, 101, 100, 95, 112, 114, 105, 99, 101, 95, 112, 97, 114, 97, 109], E.bytes p], E.programId)
  | .escrow p o i =>
    some ([[101, 115, 99, 114, 111, 119], E.bytes p, E.bytes o, [UInt8.ofNat (i % 256)]], E.programId)
  | .merkleRoot p v =>
    some ([[109, 101, 114, 107, 108, 101, 95, 114, 111, 111, 116],
      E.bytes p, (List.range 8).map fun k => UInt8.ofNat (v / 256 ^ k % 256)], E.programId)
  | .operator c o =>
    some ([[111, 112, 101, 114, 97, 116, 111, 114], E.bytes c, E.bytes o], E.programId)
  | .serverMetadata p =>
    some ([[115, 101, 114, 118, 101, 114, 95, 109, 101, 116, 97, 100, 97, 116, 97], E.bytes p], E.programId)
  | .ata o m t =>
    some ([E.bytes o, match t with | .splToken => E.splTokenId | .splToken2022 => E.token2022Id, E.bytes m],
      E.ataProgramId)

/-- The bytes of "ProgramDerivedAddress". -/
def pdaMarker : Bytes :=
  [80, 114, 111, 103, 114, 97, 109, 68, 101, 114, 105, 118, 101, 100, 65, 100, 100, 114, 101, 115, 115]

end Spec

theorem AddrEnv.bytes_hash {E : AddrEnv} {a : Addr} {x : Bytes} (h : E.message a = some x) : E.bytes a = E.hash x := by
  cases a <;> simp only [AddrEnv.message, AddrEnv.seeds, Option.map_some, Option.map_none, Option.some.injEq,
    reduceCtorEq] at h <;> rw [← h, AddrEnv.bytes]

theorem AddrEnv.bytes_length (E : AddrEnv) (a : Addr) : (E.bytes a).length = 32 := by
  cases a <;> simp only [AddrEnv.bytes, E.lenKey, E.lenHash]

theorem AddrEnv.tokenProgramId_length (E : AddrEnv) (t : TokenProgram) : (E.tokenProgramId t).length = 32 := by
  cases t
  · exact E.lenSpl
  · exact E.len2022

/-- Length of the seeds of each kind of address. -/
def seedLength : Addr → Option Nat
  | .key _ => none
  | .presaleAuthority => some 17
  | .presale _ _ _ => some 103
  | .baseVault _ => some 42
  | .quoteVault _ => some 43
  | .fixedPriceArgs _ => some 49
  | .escrow _ _ _ => some 71
  | .merkleRoot _ _ => some 51
  | .operator _ _ => some 72
  | .serverMetadata _ => some 47
  | .ata _ _ _ => some 96

theorem AddrEnv.seeds_length {E : AddrEnv} {a : Addr} {s : Bytes × Bytes} (h : E.seeds a = some s) :
    seedLength a = some s.1.length ∧ s.2.length = 32 := by
  have hb := E.bytes_length
  cases a <;> simp only [AddrEnv.seeds, Option.some.injEq, reduceCtorEq] at h <;> subst h <;>
    simp only [seedLength, List.length_append, hb, E.tokenProgramId_length, leBytes_length, E.lenProgram, E.lenAta,
      and_true] <;> rfl

/-- Equal hashed strings have equal seeds and programs. -/
theorem AddrEnv.message_seeds {E : AddrEnv} {a b : Addr} {s s' : Bytes × Bytes} (h : E.seeds a = some s)
    (h' : E.seeds b = some s') (e : E.message a = E.message b) : s = s' := by
  obtain ⟨-, l2⟩ := AddrEnv.seeds_length h
  obtain ⟨-, l4⟩ := AddrEnv.seeds_length h'
  unfold AddrEnv.message AddrEnv.preimage at e
  rw [h, h', Option.map_some, Option.map_some, Option.some.injEq] at e
  have hl : s.1.length = s'.1.length := by
    have := congrArg List.length e
    simp only [List.length_append, List.length_cons, l2, l4] at this
    omega
  obtain ⟨e1, e2⟩ := List.append_inj e hl
  rw [List.cons.injEq] at e2
  have e3 := (List.append_inj e2.2 (l2.trans l4.symm)).1
  exact Prod.ext e1 e3

theorem leBytes_inj {n x y : Nat} (hx : x < 256 ^ n) (hy : y < 256 ^ n) (h : leBytes n x = leBytes n y) : x = y := by
  have := congrArg leNat h
  rwa [leNat_leBytes n x hx, leNat_leBytes n y hy] at this

/-- Equal strings of two addresses, the first derived, come from equal seeds. -/
theorem Spec.NoCollision.seeds_eq {E : AddrEnv} {S : Addr → Prop} (N : NoCollision E S) {a b : Addr} (ha : S a)
    (hb : S b) (e : E.bytes a = E.bytes b) {s : Bytes × Bytes} (hs : E.seeds a = some s) : E.seeds b = some s := by
  have ma : E.message a = some (E.preimage a s.1 s.2) := by unfold AddrEnv.message; rw [hs, Option.map_some]
  have ea := AddrEnv.bytes_hash ma
  cases hb' : E.seeds b with
  | none =>
    cases b with
    | key n =>
      exfalso
      refine N.mixed n a _ hb ha ma ?_
      rw [AddrEnv.bytes] at e
      rw [← e, ea]
    | _ => simp [AddrEnv.seeds] at hb'
  | some s' =>
    have mb : E.message b = some (E.preimage b s'.1 s'.2) := by unfold AddrEnv.message; rw [hb', Option.map_some]
    have eb := AddrEnv.bytes_hash mb
    have := N.hash a b _ _ ha hb ma mb (by rw [← ea, ← eb, e])
    rw [AddrEnv.message_seeds hs hb' (by rw [ma, mb, this])]

/-! ## C65 -/

/-- **C65.** Different addresses have different strings, unless the hash collides or hits a key. -/
theorem C65_distinct {E : AddrEnv} {S : Addr → Prop} (N : NoCollision E S) (hparts : ∀ a, S a → ∀ b ∈ parts a, S b)
    (hfit : ∀ a, S a → seedsFit a) {a b : Addr} (ha : S a) (hb : S b) (e : E.bytes a = E.bytes b) : a = b := by
  have hl : ∀ x y, (E.bytes x).length = (E.bytes y).length :=
    fun x y => (E.bytes_length x).trans (E.bytes_length y).symm
  have same : ∀ {x y s}, S x → S y → E.bytes x = E.bytes y → E.seeds x = some s →
      E.seeds y = some s ∧ seedLength x = seedLength y := fun hx hy e hs =>
    have hs' := N.seeds_eq hx hy e hs
    ⟨hs', (AddrEnv.seeds_length hs).1.trans (AddrEnv.seeds_length hs').1.symm⟩
  induction a generalizing b with
  | key n =>
    cases hs' : E.seeds b with
    | none =>
      cases b with
      | key m => exact congrArg Addr.key (N.keys n m ha hb e)
      | _ => simp [AddrEnv.seeds] at hs'
    | some s => exact absurd (N.seeds_eq hb ha e.symm hs') (by simp [AddrEnv.seeds])
  | presaleAuthority =>
    obtain ⟨-, hn⟩ := same ha hb e rfl
    cases b <;> simp [seedLength] at hn
    rfl
  | presale x y z i1 i2 i3 =>
    obtain ⟨hs, hn⟩ := same ha hb e rfl
    cases b <;> simp [seedLength] at hn
    rename_i x' y' z'
    simp only [AddrEnv.seeds, Option.some.injEq, Prod.mk.injEq, and_true] at hs
    obtain ⟨e1, h1⟩ := List.append_inj (List.append_inj hs rfl).2 (hl _ _)
    obtain ⟨e2, e3⟩ := List.append_inj h1 (hl _ _)
    rw [i1 (hparts _ ha x (by simp [parts])) (hparts _ hb x' (by simp [parts])) e1.symm,
      i2 (hparts _ ha y (by simp [parts])) (hparts _ hb y' (by simp [parts])) e2.symm,
      i3 (hparts _ ha z (by simp [parts])) (hparts _ hb z' (by simp [parts])) e3.symm]
  | baseVault x i1 =>
    obtain ⟨hs, hn⟩ := same ha hb e rfl
    cases b <;> simp [seedLength] at hn
    rename_i x'
    simp only [AddrEnv.seeds, Option.some.injEq, Prod.mk.injEq, and_true] at hs
    rw [i1 (hparts _ ha x (by simp [parts])) (hparts _ hb x' (by simp [parts])) (List.append_inj hs rfl).2.symm]
  | quoteVault x i1 =>
    obtain ⟨hs, hn⟩ := same ha hb e rfl
    cases b <;> simp [seedLength] at hn
    rename_i x'
    simp only [AddrEnv.seeds, Option.some.injEq, Prod.mk.injEq, and_true] at hs
    rw [i1 (hparts _ ha x (by simp [parts])) (hparts _ hb x' (by simp [parts])) (List.append_inj hs rfl).2.symm]
  | fixedPriceArgs x i1 =>
    obtain ⟨hs, hn⟩ := same ha hb e rfl
    cases b <;> simp [seedLength] at hn
    rename_i x'
    simp only [AddrEnv.seeds, Option.some.injEq, Prod.mk.injEq, and_true] at hs
    rw [i1 (hparts _ ha x (by simp [parts])) (hparts _ hb x' (by simp [parts])) (List.append_inj hs rfl).2.symm]
  | serverMetadata x i1 =>
    obtain ⟨hs, hn⟩ := same ha hb e rfl
    cases b <;> simp [seedLength] at hn
    rename_i x'
    simp only [AddrEnv.seeds, Option.some.injEq, Prod.mk.injEq, and_true] at hs
    rw [i1 (hparts _ ha x (by simp [parts])) (hparts _ hb x' (by simp [parts])) (List.append_inj hs rfl).2.symm]
  | escrow x y i i1 i2 =>
    obtain ⟨hs, hn⟩ := same ha hb e rfl
    cases b <;> simp [seedLength] at hn
    rename_i x' y' i'
    simp only [AddrEnv.seeds, Option.some.injEq, Prod.mk.injEq, and_true] at hs
    obtain ⟨e1, h1⟩ := List.append_inj (List.append_inj hs rfl).2 (hl _ _)
    obtain ⟨e2, e3⟩ := List.append_inj h1 (hl _ _)
    have f1 : i < 256 ^ 1 := hfit _ ha
    have f2 : i' < 256 ^ 1 := hfit _ hb
    rw [i1 (hparts _ ha x (by simp [parts])) (hparts _ hb x' (by simp [parts])) e1.symm,
      i2 (hparts _ ha y (by simp [parts])) (hparts _ hb y' (by simp [parts])) e2.symm, leBytes_inj f1 f2 e3.symm]
  | merkleRoot x v i1 =>
    obtain ⟨hs, hn⟩ := same ha hb e rfl
    cases b <;> simp [seedLength] at hn
    rename_i x' v'
    simp only [AddrEnv.seeds, Option.some.injEq, Prod.mk.injEq, and_true] at hs
    obtain ⟨e1, e2⟩ := List.append_inj (List.append_inj hs rfl).2 (hl _ _)
    have f1 : v < 256 ^ 8 := hfit _ ha
    have f2 : v' < 256 ^ 8 := hfit _ hb
    rw [i1 (hparts _ ha x (by simp [parts])) (hparts _ hb x' (by simp [parts])) e1.symm, leBytes_inj f1 f2 e2.symm]
  | operator x y i1 i2 =>
    obtain ⟨hs, hn⟩ := same ha hb e rfl
    cases b <;> simp [seedLength] at hn
    rename_i x' y'
    simp only [AddrEnv.seeds, Option.some.injEq, Prod.mk.injEq, and_true] at hs
    obtain ⟨e1, e2⟩ := List.append_inj (List.append_inj hs rfl).2 (hl _ _)
    rw [i1 (hparts _ ha x (by simp [parts])) (hparts _ hb x' (by simp [parts])) e1.symm,
      i2 (hparts _ ha y (by simp [parts])) (hparts _ hb y' (by simp [parts])) e2.symm]
  | ata x y t i1 i2 =>
    obtain ⟨hs, hn⟩ := same ha hb e rfl
    cases b <;> simp [seedLength] at hn
    rename_i x' y' t'
    simp only [AddrEnv.seeds, Option.some.injEq, Prod.mk.injEq, and_true] at hs
    obtain ⟨e1, h1⟩ := List.append_inj hs (hl _ _)
    obtain ⟨e2, e3⟩ := List.append_inj h1 ((E.tokenProgramId_length _).trans (E.tokenProgramId_length _).symm)
    have ht : t = t' := by
      cases t <;> cases t' <;> first | rfl | exact absurd e2 N.programs | exact absurd e2.symm N.programs
    rw [i1 (hparts _ ha x (by simp [parts])) (hparts _ hb x' (by simp [parts])) e1.symm,
      i2 (hparts _ ha y (by simp [parts])) (hparts _ hb y' (by simp [parts])) e3.symm, ht]

/-- **C65.** Strings hashed for two different kinds of address differ already in length, whatever the bumps. -/
theorem C65_kinds {E : AddrEnv} {a b : Addr} {x y : Bytes} (ha : E.message a = some x) (hb : E.message b = some y)
    (h : seedLength a ≠ seedLength b) : x.length ≠ y.length := by
  cases hs : E.seeds a with
  | none => simp [AddrEnv.message, hs] at ha
  | some s =>
    cases hs' : E.seeds b with
    | none => simp [AddrEnv.message, hs'] at hb
    | some s' =>
      obtain ⟨l1, l2⟩ := AddrEnv.seeds_length hs
      obtain ⟨l3, l4⟩ := AddrEnv.seeds_length hs'
      simp only [AddrEnv.message, hs, hs', Option.map_some, Option.some.injEq, AddrEnv.preimage] at ha hb
      subst ha hb
      simp only [List.length_append, List.length_cons, l2, l4]
      rw [l1, l3] at h
      intro e
      exact h (congrArg some (by omega))

/-- **C65.** The numbers in the address of every account of a reachable state fit the seeds. -/
theorem C65_reachable_fit {w : World} (R : Reachable w) {k : Kind} {a : Addr} {v : k.Value} (h : Stored w k a v) :
    seedsFit a := by
  have W := R.winv
  have F := R.fits
  cases k with
  | presale =>
    rw [(W.core.sale a v h).pinv.static.key]
    trivial
  | escrow =>
    have hm := AMap.get?_mem h
    obtain ⟨e, p, hp⟩ := W.core.esc (a, v) hm
    have P := (W.core.sale _ p hp).pinv
    obtain ⟨r, hr, E⟩ := P.escBook h rfl
    have h1 := E.idx
    have h2 := P.static.countLe
    have e' : a = Addr.escrow (Escrow.presale v) (Escrow.owner v) (Escrow.registryIndex v) := e
    rw [e']
    show Escrow.registryIndex v < 2 ^ 8
    have h3 : (5 : Nat) < 2 ^ 8 := by decide
    omega
  | fixedArgs =>
    rw [(W.aux.fixed a v h).1]
    trivial
  | merkleRoot =>
    have h1 := (F.roots a v h).2
    have e : a = Addr.merkleRoot (MerkleRootConfig.presale v) (MerkleRootConfig.version v) := (W.aux.merkle a v h).1
    rw [e]
    show MerkleRootConfig.version v < 2 ^ 64
    rw [← b64] at h1
    exact h1
  | operator =>
    rw [W.aux.ops a v h]
    trivial
  | metadata =>
    rw [(W.aux.metas a v h).1]
    trivial

/-- The first address of a list with the given string. -/
def AddrEnv.find (E : AddrEnv) (xs : List Addr) (b : Bytes) : Option Addr := xs.find? fun a => E.bytes a == b

/-- Derived addresses for those of a list, arbitrary strings for others. -/
def AddrEnv.keysOf (E : AddrEnv) (xs : List Addr) : Keys where
  enc a :=
    if a ∈ xs then E.bytes a
    else match a with
      | .key m => leBytes 32 (m - keyBound xs)
      | _ => leBytes 32 0
  dec b := (E.find xs b).getD (.key (keyBound xs + leNat b))
  len a := by
    split
    · exact E.bytes_length a
    · split <;> exact leBytes_length _ _
  enc_dec b hb := by
    cases h : E.find xs b with
    | some a =>
      unfold AddrEnv.find at h
      rw [Option.getD_some, if_pos (List.mem_of_find?_eq_some h)]
      simpa using List.find?_some h
    | none =>
      rw [Option.getD_none, if_neg (fun hm => by have := keyBound_lt hm; omega)]
      simp only [Nat.add_sub_cancel_left]
      have := leBytes_leNat b
      rwa [hb] at this

/-- **C65.** The round trip of account bytes (C64) holds with the derived addresses: for any finite set of addresses
without a collision there is an assignment of strings that agrees with derivation and separates them. -/
theorem C65_keys {E : AddrEnv} {xs : List Addr} (N : NoCollision E (· ∈ xs)) (hparts : ∀ a ∈ xs, ∀ b ∈ parts a, b ∈ xs)
    (hfit : ∀ a ∈ xs, seedsFit a) : ∃ K : Keys, ∀ a ∈ xs, K.enc a = E.bytes a ∧ K.known a := by
  refine ⟨E.keysOf xs, fun a ha => ?_⟩
  have he : (E.keysOf xs).enc a = E.bytes a := if_pos ha
  refine ⟨he, ?_⟩
  unfold Keys.known
  rw [he]
  show (E.find xs (E.bytes a)).getD _ = a
  cases h : E.find xs (E.bytes a) with
  | none =>
    have := List.find?_eq_none.1 h a ha
    simp at this
  | some b =>
    unfold AddrEnv.find at h
    rw [Option.getD_some]
    have e : E.bytes b = E.bytes a := by simpa using List.find?_some h
    exact C65_distinct N hparts hfit (List.mem_of_find?_eq_some h) ha e

/-! ## An example -/

theorem leBytes_range (n v : Nat) : leBytes n v = (List.range n).map fun k => UInt8.ofNat (v / 256 ^ k % 256) := by
  induction n generalizing v with
  | zero => rfl
  | succ n ih =>
    rw [leBytes, ih, List.range_succ_eq_map, List.map_cons, List.map_map]
    refine congrArg₂ List.cons (by rw [Nat.pow_zero, Nat.div_one]) (List.map_congr_left fun k _ => ?_)
    simp only [Function.comp, Nat.succ_eq_add_one]
    rw [Nat.div_div_eq_div_mul, Nat.pow_succ, Nat.mul_comm]

/-- **C65.** Every derived address is the hash of exactly the listed seeds, its bump, the program and the marker. -/
theorem C65_seeds (E : AddrEnv) {a : Addr} {s : List Bytes} {program : Bytes} (h : derivation E a = some (s, program)) :
    E.bytes a = E.hash (s.flatten ++ [E.bump a] ++ program ++ pdaMarker) := by
  have m : ascii "ProgramDerivedAddress" = pdaMarker := by decide +kernel
  have one : ∀ i, leBytes 1 i = [UInt8.ofNat (i % 256)] := fun _ => rfl
  have c0 : ascii "presale_authority" =
      [112, 114, 101, 115, 97, 108, 101, 95, 97, 117, 116, 104, 111, 114, 105, 116, 121] := by decide +kernel
  have c1 : ascii "presale" =
      [112, 114, 101, 115, 97, 108, 101] := by decide +kernel
  have c2 : ascii "base_vault" =
      [98, 97, 115, 101, 95, 118, 97, 117, 108, 116] := by decide +kernel
  have c3 : ascii "quote_vault" =
      [113, 117, 111, 116, 101, 95, 118, 97, 117, 108, 116] := by decide +kernel
  have c4 : ascii "fixed_price_param" =
      [102, 105, 120, 101, 100, 95, 112, 114, 105, 99, 101, 95, 112, 97, 114, 97, 109] := by decide +kernel
  have c5 : ascii "escrow" =
      [101, 115, 99, 114, 111, 119] := by decide +kernel
  have c6 : ascii "merkle_root" =
      [109, 101, 114, 107, 108, 101, 95, 114, 111, 111, 116] := by decide +kernel
  have c7 : ascii "operator" =
      [111, 112, 101, 114, 97, 116, 111, 114] := by decide +kernel
  have c8 : ascii "server_metadata" =
      [115, 101, 114, 118, 101, 114, 95, 109, 101, 116, 97, 100, 97, 116, 97] := by decide +kernel
  cases a <;> simp only [derivation, Option.some.injEq, Prod.mk.injEq, reduceCtorEq] at h <;>
    obtain ⟨rfl, rfl⟩ := h <;>
    simp only [AddrEnv.bytes, AddrEnv.preimage, m, c0, c1, c2, c3, c4, c5, c6, c7, c8, List.flatten_cons,
      List.flatten_nil, List.append_nil,
      List.append_assoc, List.singleton_append, leBytes_range 8, one, AddrEnv.tokenProgramId] <;> rfl

/-- **C65.** All addresses but keys are derived. -/
theorem C65_derived (E : AddrEnv) (a : Addr) : derivation E a = none ↔ ∃ n, a = .key n := by
  cases a <;> simp [derivation]

/-- A toy hash. -/
def toySha (b : Bytes) : Bytes := leBytes 32 (b.foldl (fun h x => (h * 257 + x.toNat + 1) % 2 ^ 256) 7)

/-- Toy keys, ids and bumps. -/
def toyEnv : AddrEnv where
  keyBytes n := leBytes 32 n
  hash := toySha
  bump a := match a with | .escrow _ _ _ => 254 | _ => 255
  programId := leBytes 32 1001
  ataProgramId := leBytes 32 1002
  splTokenId := leBytes 32 1003
  token2022Id := leBytes 32 1004
  lenKey _ := leBytes_length _ _
  lenHash _ := leBytes_length _ _
  lenProgram := leBytes_length _ _
  lenAta := leBytes_length _ _
  lenSpl := leBytes_length _ _
  len2022 := leBytes_length _ _

/-- Addresses of the example ledger, with everything they are derived from. -/
def exampleAddrs : List Addr :=
  [Ex.creator, Ex.baseKey, Ex.alice, Ex.bob, Ex.bm, Ex.qm, Ex.sale, .presaleAuthority, .baseVault Ex.sale,
    .quoteVault Ex.sale, .fixedPriceArgs Ex.sale, Ex.escrowOf Ex.alice, Ex.escrowOf Ex.bob, .escrow Ex.sale Ex.alice 1,
    .merkleRoot Ex.sale 0, .merkleRoot Ex.sale 1, .operator Ex.creator Ex.bob, .operator Ex.bob Ex.creator,
    .serverMetadata Ex.sale, .ata Ex.creator Ex.bm .splToken, .ata Ex.creator Ex.bm .splToken2022]

/-- The hypotheses of `C65_distinct` and `C65_keys` are met. -/
example : NoCollision toyEnv (· ∈ exampleAddrs) ∧ (∀ a ∈ exampleAddrs, ∀ b ∈ parts a, b ∈ exampleAddrs) ∧
    ∀ a ∈ exampleAddrs, seedsFit a := by
  have h1 : ∀ a ∈ exampleAddrs, ∀ b ∈ exampleAddrs, toyEnv.bytes a = toyEnv.bytes b → a = b := by decide +kernel
  refine ⟨⟨?_, ?_, ?_, by decide +kernel⟩, by decide +kernel, ?_⟩
  · intro a b x y ha hb hx hy e
    have := h1 a ha b hb (by rw [AddrEnv.bytes_hash hx, AddrEnv.bytes_hash hy, e])
    subst this
    rw [hx] at hy
    exact Option.some.inj hy
  · intro n m hn hm e
    have := h1 _ hn _ hm e
    injection this
  · intro n a x hn ha hx e
    have h2 := h1 _ hn a ha (by rw [AddrEnv.bytes_hash hx, AddrEnv.bytes, e])
    subst h2
    simp [AddrEnv.message, AddrEnv.seeds] at hx
  · have h3 : ∀ a ∈ exampleAddrs, (match a with
        | .escrow _ _ i => decide (i < 2 ^ 8)
        | .merkleRoot _ v => decide (v < 2 ^ 64)
        | _ => true) = true := by decide +kernel
    intro a ha
    have := h3 a ha
    cases a <;> simp_all [seedsFit]


/-- An operator's record: four seeds with the bump, for the program itself. -/
example : (derivation toyEnv (.operator (.key 1) (.key 2))).isSome ∧
    toyEnv.bytes (.operator (.key 1) (.key 2)) = toyEnv.hash ([111, 112, 101, 114, 97, 116, 111, 114] ++
      toyEnv.bytes (.key 1) ++ toyEnv.bytes (.key 2) ++ [toyEnv.bump (.operator (.key 1) (.key 2))] ++
      toyEnv.programId ++ pdaMarker) := by decide +kernel


end Verif
