import Verif.Lemmas.Offsets
import Verif.Lemmas.Utf8
import Verif.Props.Data
/-!
# C76: where each field lies in accounts and instruction data
-/

namespace Verif
open Spec
open Codec (u8 u16 u64 u128 Reads Parses uint_reads pad_reads key_reads raw_reads)

theorem Codec.byte_reads : Codec.byte.Reads 1 (fun d o => byteAt d o) :=
  Parses.congr ((raw_reads 1).map _ _ _) (fun _ _ => Iff.rfl) (fun _ _ _ => rfl) (fun _ _ _ => rfl)

theorem itemsAt_one (d : Bytes) (o k : Nat) : itemsAt (fun d o => byteAt d o) 1 d o k = bytesAt d o k := by
  unfold itemsAt bytesAt
  exact List.map_congr_left fun i _ => by rw [Nat.one_mul]

theorem Codec.str_parses : Codec.str.Parses TextFits (fun d o => bytesAt d (o + 4) (numAt d o 4))
    (fun d o => o + 4 + numAt d o 4) :=
  ((Codec.byte_reads.vec).guard utf8).congr
    (fun d o => by
      simp only [TextFits, itemsAt_one, Nat.one_mul]
      rw [utf8_iff]
      exact Iff.rfl)
    (fun d o _ => itemsAt_one d _ _) (fun d o _ => by rw [Nat.one_mul])

/-! ## Accounts -/

theorem registry_reads : registryCodec.Reads 160 registryAt := by
  have h := ((uint_reads 8).pair ((uint_reads 8).pair ((uint_reads 8).pair ((uint_reads 8).pair ((uint_reads 8).pair
    ((uint_reads 8).pair ((uint_reads 8).pair ((uint_reads 8).pair ((uint_reads 2).pair ((pad_reads 14).pair
    (pad_reads 80))))))))))).map RegistryWire.value Registry.wire (fun v => registryWire.valid v.wire)
  refine Parses.congr h (fun _ _ => Iff.rfl) (fun d o _ => ?_) (fun _ _ _ => rfl)
  simp only [RegistryWire.value, registryAt, Nat.add_assoc, Nat.reduceAdd]

/-- Reading after the discriminator. -/
theorem Codec.Parses.at {α : Type} {c : Codec α} {p : Bytes → Nat → Prop} {f : Bytes → Nat → α} {e : Bytes → Nat → Nat}
    (P : c.Parses p f e) {d : Bytes} (h8 : 8 ≤ d.length) (v : α) :
    (c.dec (d.drop 8)).map Prod.fst = some v ↔ p d 8 ∧ v = f d 8 := by
  by_cases hp : p d 8
  · rw [P.yes d 8 h8 hp]
    exact ⟨fun h => ⟨hp, (Option.some.inj h).symm⟩, fun h => congrArg some h.2.symm⟩
  · rw [P.no d 8 h8 hp]
    exact ⟨fun h => (by cases h), fun h => absurd h.1 hp⟩

theorem presale_at (K : Keys) {d : Bytes} (h8 : 8 ≤ d.length) (x : Presale) :
    ((presaleCodec K).dec (d.drop 8)).map Prod.fst = some x ↔ 1272 ≤ d.length ∧ x = presaleAt K d := by
  have k := key_reads K
  have u1 := uint_reads 1
  have u2 := uint_reads 2
  have u := uint_reads 8
  have v := uint_reads 16
  have h : (presaleCodec K).Reads 1264 _ :=
    (k.pair (k.pair (k.pair (k.pair (k.pair (k.pair ((pad_reads 1).pair (u1.pair (u1.pair ((pad_reads 5).pair
    (u.pair (u.pair (u.pair (u.pair (u.pair (u.pair (u.pair (u.pair (u.pair (u.pair (u.pair ((pad_reads 8).pair
    (u.pair (u.pair (u.pair (u.pair (u.pair (u1.pair ((pad_reads 7).pair (u1.pair (u1.pair (u1.pair (u1.pair (u1.pair
    (u1.pair (u2.pair (v.pair (v.pair (v.pair ((pad_reads 64).pair
    (registry_reads.array 5))))))))))))))))))))))))))))))))))))))))).map _ _ _
  exact h.at h8 x

theorem escrow_at (K : Keys) {d : Bytes} (h8 : 8 ≤ d.length) (x : Escrow) :
    ((escrowCodec K).dec (d.drop 8)).map Prod.fst = some x ↔ 200 ≤ d.length ∧ x = escrowAt K d := by
  have k := key_reads K
  have u1 := uint_reads 1
  have u := uint_reads 8
  have h : (escrowCodec K).Reads 192 _ :=
    (k.pair (k.pair (u.pair (u.pair (u1.pair (u1.pair ((pad_reads 6).pair (u.pair (u.pair (u.pair (u.pair
    (u.pair (pad_reads 64))))))))))))).map _ _ _
  exact h.at h8 x

theorem fixedArgs_at (K : Keys) {d : Bytes} (h8 : 8 ≤ d.length) (x : FixedPriceArgs) :
    ((fixedPriceArgsCodec K).dec (d.drop 8)).map Prod.fst = some x ↔ 168 ≤ d.length ∧ x = fixedArgsAt K d := by
  have k := key_reads K
  have h : (fixedPriceArgsCodec K).Reads 160 _ :=
    ((pad_reads 15).pair ((uint_reads 1).pair ((uint_reads 16).pair (k.pair (k.pair (pad_reads 64)))))).map _ _ _
  exact h.at h8 x

theorem merkleRoot_at (K : Keys) {d : Bytes} (h8 : 8 ≤ d.length) (x : MerkleRootConfig) :
    ((merkleRootConfigCodec K).dec (d.drop 8)).map Prod.fst = some x ↔ 152 ≤ d.length ∧ x = merkleRootAt K d := by
  have h : (merkleRootConfigCodec K).Reads 144 _ :=
    ((raw_reads 32).pair ((pad_reads 8).pair ((key_reads K).pair ((uint_reads 8).pair (pad_reads 64))))).map _ _ _
  exact h.at h8 x

theorem operator_at (K : Keys) {d : Bytes} (h8 : 8 ≤ d.length) (x : Operator) :
    ((operatorCodec K).dec (d.drop 8)).map Prod.fst = some x ↔ 136 ≤ d.length ∧ x = operatorAt K d := by
  have h : (operatorCodec K).Reads 128 _ := ((key_reads K).pair ((key_reads K).pair (pad_reads 64))).map _ _ _
  exact h.at h8 x

theorem metadata_at (K : Keys) {d : Bytes} (h8 : 8 ≤ d.length) (x : ServerMetadata) :
    ((serverMetadataCodec K).dec (d.drop 8)).map Prod.fst = some x ↔ TextFits d 168 ∧ x = metadataAt K d := by
  have h : (serverMetadataCodec K).Parses _ _ _ :=
    (Parses.pair (key_reads K) (Parses.pair (pad_reads 128) Codec.str_parses)).map _ _ _
  rw [h.at h8 x]
  have e : (8 + 32 ≤ d.length ∧ 8 + 32 + 128 ≤ d.length ∧ TextFits d 168) ↔ TextFits d 168 :=
    ⟨fun g => g.2.2, fun g => by have := g.1; exact ⟨by omega, by omega, g⟩⟩
  exact and_congr e Iff.rfl

theorem take_len {D d : Bytes} (h : d.take 8 = D) (hD : D.length = 8) : 8 ≤ d.length := by
  have := congrArg List.length h
  rw [List.length_take] at this
  omega

/-- **C76.** Data is read as an account of a kind exactly if it begins with the kind's discriminator and is long
enough, and every field is then the one at its offset. -/
theorem C76_account (D : Discs Kind) (K : Keys) (k : Kind) (d : Bytes) (v : k.Value) :
    readAccount D K k d = some v ↔ d.take 8 = D.of k ∧ AccountFits d k ∧ v = accountAt K d k := by
  unfold readAccount
  by_cases h : d.take 8 = D.of k
  · have h8 := take_len h (D.len k)
    rw [if_pos h]
    refine Iff.trans ?_ (Iff.symm (and_iff_right h))
    cases k
    · exact presale_at K h8 v
    · exact escrow_at K h8 v
    · exact fixedArgs_at K h8 v
    · exact merkleRoot_at K h8 v
    · exact operator_at K h8 v
    · exact metadata_at K h8 v
  · rw [if_neg h]
    exact ⟨fun g => (by cases g), fun g => absurd g.1 h⟩

/-! ## Instruction data -/

theorem slice_parses : sliceCodec.Parses (fun d o => o + 2 ≤ d.length ∧ numAt d o 1 ≤ 1) sliceAt (fun _ o => o + 2) := by
  have h : sliceCodec.Parses _ _ _ :=
    ((((Parses.guard (uint_reads 1) (fun b => decide (b < 2))).map _ _ _).pair (uint_reads 1)).map _ _ _)
  refine h.congr (fun d o => ?_) (fun d o _ => rfl) (fun d o _ => rfl)
  rw [decide_eq_true_eq]
  omega

theorem slices_parses : slicesCodec.Parses SlicesLie slicesAt (fun d o => o + 4 + 2 * numAt d o 4) :=
  (Parses.vec slice_parses).congr (fun _ _ => Iff.rfl) (fun _ _ _ => rfl) (fun _ _ _ => rfl)

theorem watchedPad_reads (n : Nat) :
    (watchedPad n).Reads (n + 1) (fun d o => zeroAt d o (n + 1)) := by
  have h : (watchedPad n).Reads (n + 1) _ := (raw_reads (n + 1)).map _ _ _
  refine Parses.congr h (fun _ _ => Iff.rfl) (fun d o _ => ?_) (fun _ _ _ => rfl)
  rw [zeroAt, Bool.eq_iff_iff, List.all_eq_true, decide_eq_true_eq]
  exact forall₂_congr fun b _ => beq_iff_eq

theorem registryArgs_reads : registryArgsCodec.Reads 58 registryArgsAt := by
  have u := uint_reads 8
  have h : registryArgsCodec.Reads 58 _ :=
    (u.pair (u.pair (u.pair ((uint_reads 2).pair (pad_reads 32))))).map _ _ _
  refine Parses.congr h (fun _ _ => Iff.rfl) (fun d o _ => ?_) (fun _ _ _ => rfl)
  simp only [registryArgsAt, Nat.add_assoc, Nat.reduceAdd]

theorem presaleArgs_reads : ∃ f, presaleArgsCodec.Reads 66 f ∧ ∀ d, f d 8 = (initArgsAt d).presaleParams := by
  have u := uint_reads 8
  have u1 := uint_reads 1
  have h : presaleArgsCodec.Reads 66 _ :=
    (u.pair (u.pair (u.pair (u.pair (u1.pair (u1.pair (u1.pair (u1.pair (pad_reads 30))))))))).map _ _ _
  exact ⟨_, h, fun _ => rfl⟩

theorem vestingArgs_reads : ∃ f, vestingArgsCodec.Reads 50 f ∧ ∀ d, f d 74 = (initArgsAt d).lockedVestingParams := by
  have u := uint_reads 8
  have h : vestingArgsCodec.Reads 50 _ :=
    ((uint_reads 2).pair (u.pair (u.pair (u.pair (watchedPad_reads 23))))).map _ _ _
  exact ⟨_, h, fun _ => rfl⟩

theorem initPresale_at {d : Bytes} (h8 : 8 ≤ d.length) (x : InitializePresaleArgs × List RemSlice) :
    ((initArgsCodec.pair slicesCodec).dec (d.drop 8)).map Prod.fst = some x ↔
      (registriesEnd d ≤ d.length ∧ SlicesLie d (registriesEnd d)) ∧
        x = (initArgsAt d, slicesAt d (registriesEnd d)) := by
  obtain ⟨f, hf, ef⟩ := presaleArgs_reads
  obtain ⟨g, hg, eg⟩ := vestingArgs_reads
  have h : (initArgsCodec.pair slicesCodec).Parses _ _ _ :=
    ((Parses.pair hf (Parses.pair hg (Parses.pair (pad_reads 32) (Reads.vec registryArgs_reads)))).map _ _ _).pair
      slices_parses
  rw [h.at h8 x]
  simp only [Nat.reduceAdd, ef, eg]
  refine and_congr ⟨fun k => ⟨k.1.2.2.2, k.2⟩, fun k => ⟨⟨?_, ?_, ?_, k.1⟩, k.2⟩⟩ Iff.rfl <;>
    (have := k.1; unfold registriesEnd at this; omega)

theorem createEscrowMerkle_at {d : Bytes} (h8 : 8 ≤ d.length) (x : List Bytes × Nat × Nat × Unit) :
    (((Codec.vec (.raw 32)).pair (u8.pair (u64.pair (.pad 32)))).dec (d.drop 8)).map Prod.fst = some x ↔
      proofEnd d + 41 ≤ d.length ∧
        x = (itemsAt (fun d o => bytesAt d o 32) 32 d 12 (numAt d 8 4), numAt d (proofEnd d) 1,
          numAt d (proofEnd d + 1) 8, ()) := by
  have h : ((Codec.vec (.raw 32)).pair (u8.pair (u64.pair (.pad 32)))).Parses _ _ _ :=
    Parses.pair (Reads.vec (raw_reads 32)) ((uint_reads 1).pair ((uint_reads 8).pair (pad_reads 32)))
  rw [h.at h8 x]
  refine and_congr ⟨fun k => k.2, fun k => ⟨?_, k⟩⟩ Iff.rfl
  have : proofEnd d + 41 ≤ d.length := k
  unfold proofEnd at this
  omega

theorem amountSlices_at {d : Bytes} (h8 : 8 ≤ d.length) (x : Nat × List RemSlice) :
    ((u64.pair slicesCodec).dec (d.drop 8)).map Prod.fst = some x ↔
      SlicesLie d 16 ∧ x = (numAt d 8 8, slicesAt d 16) := by
  have h : (u64.pair slicesCodec).Parses _ _ _ := Parses.pair (uint_reads 8) slices_parses
  rw [h.at h8 x]
  exact and_congr ⟨fun k => k.2, fun k => ⟨by have := k.1; omega, k⟩⟩ Iff.rfl

theorem args_at (K : Keys) {d : Bytes} (h8 : 8 ≤ d.length) (n : IxName) (x : n.Args) :
    ((n.codec K).dec (d.drop 8)).map Prod.fst = some x ↔ ArgsFit d n ∧ x = argsAt K d n := by
  have nothing : ∀ y : Unit, (Codec.nothing.dec (d.drop 8)).map Prod.fst = some y ↔ True ∧ y = () :=
    fun y => ⟨fun _ => ⟨trivial, rfl⟩, fun _ => rfl⟩
  cases n
  case initFixedArgs =>
    have h : (K.codec.pair (u8.pair (u128.pair (.pad 64)))).Reads 113 _ :=
      (key_reads K).pair ((uint_reads 1).pair ((uint_reads 16).pair (pad_reads 64)))
    exact h.at h8 x
  case initPresale => exact initPresale_at h8 x
  case createMerkle =>
    have h : ((Codec.raw 32).pair u64).Reads 40 _ := (raw_reads 32).pair (uint_reads 8)
    exact h.at h8 x
  case createEscrowCreator =>
    have h : (u8.pair (u64.pair (.pad 32))).Reads 41 _ := (uint_reads 1).pair ((uint_reads 8).pair (pad_reads 32))
    exact h.at h8 x
  case createEscrowMerkle => exact createEscrowMerkle_at h8 x
  case deposit => exact amountSlices_at h8 x
  case withdraw => exact amountSlices_at h8 x
  case claim => exact slices_parses.at h8 x
  case refund => exact slices_parses.at h8 x
  case unsold => exact slices_parses.at h8 x
  case creatorWithdraw => exact slices_parses.at h8 x
  case collectFee => exact slices_parses.at h8 x
  case createMetadata => exact Codec.str_parses.at h8 x
  all_goals exact nothing x

/-- **C76.** Data is taken as a call of an instruction exactly if it begins with the instruction's selector and holds
its arguments, and every argument is then the one at its offset. -/
theorem C76_call (D : Discs IxName) (K : Keys) (d : Bytes) (n : IxName) (x : n.Args) :
    decodeCall D K d = some ⟨n, x⟩ ↔ d.take 8 = D.of n ∧ ArgsFit d n ∧ x = argsAt K d n := by
  constructor
  · intro h
    unfold decodeCall at h
    split at h
    · cases h
    · rename_i m hm
      have hd : D.of m = d.take 8 := by simpa using List.find?_some hm
      have h8 := take_len hd.symm (D.len m)
      cases hx : (m.codec K).dec (d.drop 8) with
      | none => rw [hx] at h; cases h
      | some y =>
        rw [hx] at h
        cases h
        have := (args_at K h8 n y.1).1 (by rw [hx]; rfl)
        exact ⟨hd.symm, this.1, this.2⟩
  · rintro ⟨hd, hf, hx⟩
    have h8 := take_len hd (D.len n)
    have h := (args_at K h8 n x).2 ⟨hf, hx⟩
    unfold decodeCall
    rw [find_name D n _ hd]
    show Option.map _ _ = _
    cases hy : (n.codec K).dec (d.drop 8) with
    | none => rw [hy] at h; cases h
    | some y =>
      rw [hy] at h
      cases h
      rfl


/-- **C76.** Of every account of a reachable ledger, written out, each field lies at its offset. -/
theorem C76_written {w : World} (R : Reachable w) (hclock : w.clock < (2 : Int) ^ 64) (D : Discs Kind) {K : Keys}
    {k : Kind} {a : Addr} {v : k.Value} (h : Stored w k a v) (hk : ∀ x ∈ addresses k v, K.known x) (rest : Bytes) :
    AccountFits (writeAccount D K k v ++ rest) k ∧ accountAt K (writeAccount D K k v ++ rest) k = v :=
  have A := (C76_account D K k _ v).1 (C64_round_trip R hclock D h hk rest)
  ⟨A.2.1, A.2.2.symm⟩

/-- **C76.** Of every call whose arguments are in range, written out, each argument lies at its offset. -/
theorem C76_sent (D : Discs IxName) (K : Keys) (c : Call) (hv : (c.1.codec K).valid c.2) (rest : Bytes) :
    ArgsFit (encodeCall D K c ++ rest) c.1 ∧ argsAt K (encodeCall D K c ++ rest) c.1 = c.2 :=
  have A := (C76_call D K _ c.1 c.2).1 (C66_round_trip D K c hv rest)
  ⟨A.2.1, A.2.2.symm⟩

/-! ## Examples -/

/-- Alice's deposit of 1000 is the number at offset 72 of the written escrow, their registry the byte at 89. -/
example : (match Ex.prorataOpen.escrows.get? (Ex.escrowOf Ex.alice) with
    | some e =>
      let d := writeAccount exampleDiscs exampleKeys .escrow e
      decide (numAt d 72 8 = e.totalDeposit ∧ numAt d 112 8 = e.createdAt ∧ keyAt exampleKeys d 40 = Ex.alice)
    | none => false) = true := by decide +kernel

/-- A deposit of 258 with one slice of three accounts for the quote token, from its bytes. -/
example :
    let d : Bytes := [110, 0, 0, 0, 0, 0, 0, 0, 2, 1, 0, 0, 0, 0, 0, 0, 1, 0, 0, 0, 1, 3]
    numAt d 8 8 = 258 ∧ slicesAt d 16 = [{ accountsType := .transferHookQuote, length := 3 }] ∧
    22 = 16 + 4 + 2 * numAt d 16 4 ∧ numAt d 20 1 ≤ 1 := by decide +kernel


end Verif
