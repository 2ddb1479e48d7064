import Verif.Model.Data
import Verif.Lemmas.Decoding
import Verif.Props.Layout
import Verif.Lemmas.MachineAdmin
/-!
# C66: instruction data
-/

namespace Verif
open Spec Codec

/-! ## Laws of the argument formats -/

theorem accountsTypeCodec_lawful : accountsTypeCodec.Lawful := by
  refine map_lawful (guard_lawful (uint_lawful 1) _) (fun t _ => ?_) (fun _ _ => trivial)
  have h0 : (0 : Nat) < 256 ^ 1 := by decide
  have h1 : (1 : Nat) < 256 ^ 1 := by decide
  cases t
  · exact ⟨rfl, h0, rfl⟩
  · exact ⟨rfl, h1, rfl⟩

theorem sliceCodec_lawful : sliceCodec.Lawful :=
  map_lawful (pair_lawful accountsTypeCodec_lawful (uint_lawful 1)) (fun _ h => ⟨rfl, trivial, h⟩) (fun _ h => h.2)

theorem slicesCodec_lawful : slicesCodec.Lawful := vec_lawful sliceCodec_lawful

theorem presaleArgsCodec_lawful : presaleArgsCodec.Lawful :=
  map_lawful (by lawful) (fun _ h => ⟨rfl, h.1, h.2.1, h.2.2.1, h.2.2.2.1, h.2.2.2.2.1, h.2.2.2.2.2.1,
    h.2.2.2.2.2.2.1, h.2.2.2.2.2.2.2, trivial⟩)
    (fun _ h => ⟨h.1, h.2.1, h.2.2.1, h.2.2.2.1, h.2.2.2.2.1, h.2.2.2.2.2.1, h.2.2.2.2.2.2.1, h.2.2.2.2.2.2.2.1⟩)

theorem watchedPad_lawful (n : Nat) : (watchedPad n).Lawful := by
  refine map_lawful (raw_lawful (n + 1)) (fun z _ => ?_) (fun _ _ => trivial)
  cases z <;> simp [raw]

theorem vestingArgsCodec_lawful : vestingArgsCodec.Lawful := by
  have := watchedPad_lawful 23
  exact map_lawful (by lawful) (fun _ h => ⟨rfl, h.1, h.2.1, h.2.2.1, h.2.2.2, trivial⟩)
    (fun _ h => ⟨h.1, h.2.1, h.2.2.1, h.2.2.2.1⟩)

theorem registryArgsCodec_lawful : registryArgsCodec.Lawful :=
  map_lawful (by lawful) (fun _ h => ⟨rfl, h.1, h.2.1, h.2.2.1, h.2.2.2, trivial⟩)
    (fun _ h => ⟨h.1, h.2.1, h.2.2.1, h.2.2.2.1⟩)

theorem initArgsCodec_lawful : initArgsCodec.Lawful := by
  have h1 := presaleArgsCodec_lawful
  have h2 := vestingArgsCodec_lawful
  have h3 := registryArgsCodec_lawful
  exact map_lawful (by lawful) (fun _ h => ⟨rfl, h.1, h.2.1, trivial, h.2.2⟩) (fun _ h => ⟨h.1, h.2.1, h.2.2.2⟩)

theorem IxName.codec_lawful (K : Keys) (n : IxName) : (n.codec K).Lawful := by
  have h1 := initArgsCodec_lawful
  have h2 := slicesCodec_lawful
  cases n <;> simp only [IxName.codec] <;> lawful

/-! ## The argument checks are those of the formats -/

theorem slices_valid (ss : List RemSlice) : slicesCodec.valid ss ↔ slicesInRange ss = true := by
  unfold slicesInRange
  simp only [Bool.and_eq_true, decide_eq_true_eq, List.all_eq_true]
  rw [← b32, ← b8]
  exact Iff.rfl

theorem initArgs_valid (a : InitializePresaleArgs) : initArgsCodec.valid a ↔ a.inRange = true := by
  unfold InitializePresaleArgs.inRange
  simp only [Bool.and_eq_true, decide_eq_true_eq, List.all_eq_true]
  rw [← b32, ← b8, ← b64, ← b16]
  constructor
  · rintro ⟨⟨h1, h2, h3, h4, h5, h6, h7, h8⟩, ⟨g1, g2, g3, g4⟩, k1, k2⟩
    exact ⟨⟨⟨⟨⟨⟨⟨⟨⟨⟨⟨⟨⟨h1, h2⟩, h3⟩, h4⟩, h5⟩, h6⟩, h7⟩, h8⟩, g1⟩, g2⟩, g3⟩, g4⟩, k1⟩, fun r hr =>
      ⟨⟨⟨(k2 r hr).1, (k2 r hr).2.1⟩, (k2 r hr).2.2.1⟩, (k2 r hr).2.2.2⟩⟩
  · rintro ⟨⟨⟨⟨⟨⟨⟨⟨⟨⟨⟨⟨⟨h1, h2⟩, h3⟩, h4⟩, h5⟩, h6⟩, h7⟩, h8⟩, g1⟩, g2⟩, g3⟩, g4⟩, k1⟩, k2⟩
    exact ⟨⟨h1, h2, h3, h4, h5, h6, h7, h8⟩, ⟨g1, g2, g3, g4⟩, k1, fun r hr =>
      ⟨(k2 r hr).1.1.1, (k2 r hr).1.1.2, (k2 r hr).1.2, (k2 r hr).2⟩⟩

theorem proof_valid (p : List Bytes) : (Codec.vec (Codec.raw 32)).valid p ↔ proofInRange p = true := by
  unfold proofInRange isHash32
  simp only [Bool.and_eq_true, decide_eq_true_eq, List.all_eq_true, beq_iff_eq]
  rw [← b32]
  exact Iff.rfl

theorem url_valid (u : Bytes) : Codec.str.valid u ↔ urlInRange u = true := by
  unfold urlInRange
  simp only [Bool.and_eq_true, decide_eq_true_eq]
  rw [← b32]
  exact ⟨fun h => ⟨h.1.1, h.2⟩, fun h => ⟨⟨h.1, fun _ _ => trivial⟩, h.2⟩⟩

/-- An instruction reports a decoding error exactly if its arguments cannot be written. -/
theorem deserialize_iff (K : Keys) (w : World) (tx : Tx) (i : Ix)
    (hK : ∀ a, i = .initFixedArgs a → K.known a.presale) :
    execIx w tx i = .error (.x .deserialize) ↔ ¬ ((i.call).1.codec K).valid (i.call).2 := by
  have key : ∀ {α : Type} {c : Prop} [Decidable c] {f : Unit → Except Err α} {v : Prop}, (v ↔ c) →
      (c → ND (require c (.x .deserialize) >>= f)) →
      ((require c (.x .deserialize) >>= f) = .error (.x .deserialize) ↔ ¬ v) := by
    intro α c _ f v hv hn
    by_cases h : c
    · exact ⟨fun e => absurd e (hn h), fun e => absurd (hv.2 h) e⟩
    · refine ⟨fun _ => fun e => h (hv.1 e), fun _ => ?_⟩
      unfold require
      rw [if_neg h]
      rfl
  have free : ∀ {x : Except Err (World × Receipt)}, ND x → (x = .error (.x .deserialize) ↔ ¬ True) :=
    fun h => ⟨fun e => absurd e h, fun e => absurd trivial e⟩
  cases i with
  | initFixedArgs a =>
    refine key (c := a.disableWithdraw < u8Bound ∧ a.qPrice < u128Bound) ?_ (nd_handleInitFixedArgs w tx a)
    rw [← b8, ← b128]
    exact ⟨fun h => ⟨h.2.1, h.2.2.1⟩, fun h => ⟨hK a rfl, h.1, h.2, trivial⟩⟩
  | closeFixedArgs a => exact free (nd_handleCloseFixedArgs w tx a)
  | initPresale a =>
    refine key (c := a.args.inRange = true ∧ slicesInRange a.slices = true) ?_ (nd_handleInitPresale w tx a)
    rw [← initArgs_valid, ← slices_valid]
    exact Iff.rfl
  | createMerkle a =>
    refine key (c := isHash32 a.root = true ∧ a.version < u64Bound) ?_ (nd_handleCreateMerkle w tx a)
    rw [← b64]
    unfold isHash32
    rw [beq_iff_eq]
    exact Iff.rfl
  | closeMerkle a => exact free (nd_handleCloseMerkle w tx a)
  | createEscrow a => exact free (nd_handleCreateEscrow w tx a)
  | createEscrowCreator a =>
    refine key (c := a.registryIndex < u8Bound ∧ a.depositCap < u64Bound) ?_ (nd_handleCreateEscrowCreator w tx a)
    rw [← b8, ← b64]
    exact ⟨fun h => ⟨h.1, h.2.1⟩, fun h => ⟨h.1, h.2, trivial⟩⟩
  | createEscrowMerkle a =>
    refine key (c := a.registryIndex < u8Bound ∧ a.depositCap < u64Bound ∧ proofInRange a.proof = true) ?_
      (nd_handleCreateEscrowMerkle w tx a)
    rw [← proof_valid, ← b8, ← b64]
    exact ⟨fun h => ⟨h.2.1, h.2.2.1, h.1⟩, fun h => ⟨h.2.2, h.1, h.2.1, trivial⟩⟩
  | createOperator a => exact free (nd_handleCreateOperator w tx a)
  | revokeOperator a => exact free (nd_handleRevokeOperator w tx a)
  | deposit a =>
    refine key (c := a.maxAmount < u64Bound ∧ slicesInRange a.slices = true) ?_ (nd_handleDeposit w tx a)
    rw [← slices_valid, ← b64]
    exact Iff.rfl
  | withdraw a =>
    refine key (c := a.maxAmount < u64Bound ∧ slicesInRange a.slices = true) ?_ (nd_handleWithdraw w tx a)
    rw [← slices_valid, ← b64]
    exact Iff.rfl
  | claim a => exact key (slices_valid a.slices) (nd_handleClaim w tx a)
  | refund a => exact key (slices_valid a.slices) (nd_handleRefund w tx a)
  | unsold a => exact key (slices_valid a.slices) (nd_handleUnsold w tx a)
  | closeEscrow a => exact free (nd_handleCloseEscrow w tx a)
  | creatorWithdraw a => exact key (slices_valid a.slices) (nd_handleCreatorWithdraw w tx a)
  | refresh a => exact free (nd_handleRefresh w tx a)
  | createMetadata a => exact key (url_valid a.serverUrl) (nd_handleCreateMetadata w tx a)
  | closeMetadata a => exact free (nd_handleCloseMetadata w tx a)
  | collectFee a => exact key (slices_valid a.slices) (nd_handleCollectFee w tx a)

/-! ## C66 -/

theorem find_name (D : Discs IxName) (n : IxName) (bs : Bytes) (h : bs = D.of n) :
    IxName.all.find? (fun m => D.of m == bs) = some n := by
  subst h
  cases hf : IxName.all.find? (fun m => D.of m == D.of n) with
  | none =>
    have := List.find?_eq_none.1 hf n (by cases n <;> decide)
    simp at this
  | some m =>
    have := List.find?_some hf
    rw [D.inj m n (by simpa using this)]

/-- **C66.** A call whose arguments can be written is read back from its bytes, whatever follows them. -/
theorem C66_round_trip (D : Discs IxName) (K : Keys) (c : Call) (hv : (c.1.codec K).valid c.2) (rest : Bytes) :
    decodeCall D K (encodeCall D K c ++ rest) = some c := by
  unfold decodeCall encodeCall
  rw [List.append_assoc, List.take_left' (D.len c.1), List.drop_left' (D.len c.1), find_name D c.1 _ rfl]
  simp only
  rw [(IxName.codec_lawful K c.1).dec_enc c.2 rest hv]
  rfl

/-- **C66.** Bytes that are read as a call hold arguments within the ranges of their types. -/
theorem C66_sound (D : Discs IxName) (K : Keys) {data : Bytes} {c : Call} (h : decodeCall D K data = some c) :
    (c.1.codec K).valid c.2 ∧ data.take 8 = D.of c.1 := by
  unfold decodeCall at h
  split at h
  · cases h
  · next n hn =>
    have hd : D.of n = data.take 8 := by simpa using List.find?_some hn
    cases hx : (n.codec K).dec (data.drop 8) with
    | none => rw [hx] at h; cases h
    | some x =>
      rw [hx, Option.map_some, Option.some.injEq] at h
      subst h
      exact ⟨(IxName.codec_lawful K n).sound _ _ _ hx, hd.symm⟩

/-- **C66.** The model refuses arguments as undecodable exactly if no instruction data are read as that call. -/
theorem C66_refused_iff (D : Discs IxName) (K : Keys) (w : World) (tx : Tx) (i : Ix)
    (hK : ∀ a, i = .initFixedArgs a → K.known a.presale) :
    execIx w tx i = .error (.x .deserialize) ↔ ¬ ∃ data, decodeCall D K data = some i.call := by
  rw [deserialize_iff K w tx i hK, not_iff_not]
  constructor
  · intro hv
    exact ⟨_, C66_round_trip D K i.call hv []⟩
  · rintro ⟨data, h⟩
    exact (C66_sound D K h).1

/-- **C66.** Every call that succeeds can be made: some instruction data are read as that call. -/
theorem C66_expressible (D : Discs IxName) (K : Keys) {w w' : World} {tx : Tx} {i : Ix} {rc : Receipt}
    (hK : ∀ a, i = .initFixedArgs a → K.known a.presale) (h : execIx w tx i = .ok (w', rc)) (rest : Bytes) :
    decodeCall D K (encodeCall D K i.call ++ rest) = some i.call := by
  refine C66_round_trip D K _ ?_ rest
  by_contra hv
  have := (deserialize_iff K w tx i hK).2 hv
  rw [h] at this
  cases this

/-- **C66.** Different calls that can be made have different data, even when bytes are appended. -/
theorem C66_unambiguous (D : Discs IxName) (K : Keys) {c c' : Call} (hv : (c.1.codec K).valid c.2)
    (hv' : (c'.1.codec K).valid c'.2) {rest rest' : Bytes}
    (e : encodeCall D K c ++ rest = encodeCall D K c' ++ rest') : c = c' := by
  have h1 := C66_round_trip D K c hv rest
  rw [e, C66_round_trip D K c' hv' rest'] at h1
  exact (Option.some.inj h1).symm

/-! ## Examples -/

/-- Selectors for the examples. -/
def exampleSelectors : Discs IxName where
  of n := leBytes 8 (100 + IxName.all.idxOf n)
  len _ := leBytes_length _ _
  inj k k' := by cases k <;> cases k' <;> decide +kernel

/-- A deposit as bytes: selector, amount, no slices; then read back. -/
example : encodeCall exampleSelectors exampleKeys (Ix.deposit (Ex.depositAcc Ex.alice Ex.aliceQuote 1000)).call =
    [110, 0, 0, 0, 0, 0, 0, 0, 232, 3, 0, 0, 0, 0, 0, 0, 0, 0, 0, 0] := by decide +kernel

example : (decodeCall exampleSelectors exampleKeys
    [110, 0, 0, 0, 0, 0, 0, 0, 232, 3, 0, 0, 0, 0, 0, 0, 0, 0, 0, 0, 77]).isSome = true := by decide +kernel

/-- Cut short, with an unknown selector, or with an unknown account type, the data are refused. -/
example : (decodeCall exampleSelectors exampleKeys
    [110, 0, 0, 0, 0, 0, 0, 0, 232, 3, 0, 0, 0, 0, 0, 0, 0, 0, 0]).isNone = true := by decide +kernel

example : (decodeCall exampleSelectors exampleKeys
    [10, 0, 0, 0, 0, 0, 0, 0, 232, 3, 0, 0, 0, 0, 0, 0, 0, 0, 0, 0]).isNone = true := by decide +kernel

example : (decodeCall exampleSelectors exampleKeys [112, 0, 0, 0, 0, 0, 0, 0, 1, 0, 0, 0, 2, 5]).isNone = true := by
  decide +kernel

/-- Size of the call that creates the example sale: selector, terms, vesting, padding, one registry, no slices. -/
example : (encodeCall exampleSelectors exampleKeys
    (Ix.initPresale (Ex.initArgs 1 0 0 Ex.reg1)).call).length = 8 + 66 + 50 + 32 + 4 + 58 + 4 := by decide +kernel

/-- A server address that is not UTF-8 is refused by both. -/
example : Codec.str.dec [1, 0, 0, 0, 0xC0] = none ∧ urlInRange [0xC0] = false := by
  constructor
  · decide +kernel
  · have : utf8 [0xC0] = false := by decide +kernel
    simp [urlInRange, this]


/-- **C66.** The text arguments that can be written are exactly the UTF-8 encodings of sequences of characters, of
less than 2^32 bytes. -/
theorem C66_text (u : Bytes) : Codec.str.valid u ↔
    u.length < 2 ^ 32 ∧ ∃ chars : List Char, u = chars.flatMap String.utf8EncodeChar :=
  (url_valid u).trans url_iff

/-- **C66.** So is every stored text. -/
theorem C66_stored_text {w : World} (R : Reachable w) {a : Addr} {m : ServerMetadata} (h : w.metadata a = some m) :
    ∃ chars : List Char, m.serverUrl = chars.flatMap String.utf8EncodeChar :=
  (url_iff.1 (R.fits.metas a m h)).2

/-- A text with characters of one, two, three and four bytes. -/
example : Codec.str.valid [0x61, 0xC3, 0xA9, 0xE2, 0x82, 0xAC, 0xF0, 0x9F, 0x98, 0x80] := by
  rw [C66_text]
  exact ⟨by decide, ['a', 'é', '€', '😀'], by decide +kernel⟩


end Verif
