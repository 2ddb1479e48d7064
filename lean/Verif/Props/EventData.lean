import Verif.SpecEventBytes
import Verif.Props.Selectors
import Verif.Props.Receipts
/-!
# C78: events as bytes
-/

namespace Verif
open Spec
open Codec (u8 u64 u128 Reads Parses uint_reads pad_reads key_reads raw_reads)

theorem Codec.Parses.atOff {α : Type} {c : Codec α} {p : Bytes → Nat → Prop} {f : Bytes → Nat → α}
    {e : Bytes → Nat → Nat} (P : c.Parses p f e) {d : Bytes} {o : Nat} (h : o ≤ d.length) (v : α) :
    (c.dec (d.drop o)).map Prod.fst = some v ↔ p d o ∧ v = f d o := by
  by_cases hp : p d o
  · rw [P.yes d o h hp]
    exact ⟨fun h => ⟨hp, (Option.some.inj h).symm⟩, fun h => congrArg some h.2.symm⟩
  · rw [P.no d o h hp]
    exact ⟨fun h => (by cases h), fun h => absurd h.1 hp⟩

theorem presaleCreate_at (K : Keys) {d : Bytes} (h16 : 16 ≤ d.length)
    (x : Addr × Addr × List RegistryArgs × Nat × Nat × Nat × Nat × Nat × Nat × Nat × Nat) :
    ((K.codec.pair (K.codec.pair ((Codec.vec registryArgsCodec).pair (u64.pair (u64.pair (u8.pair (u8.pair
        (u64.pair (u64.pair (u64.pair u64)))))))))).dec (d.drop 16)).map Prod.fst = some x ↔
      eventRegistriesEnd d + 50 ≤ d.length ∧ x = fieldsAt K d .presaleCreate := by
  have k := key_reads K
  have u1 := uint_reads 1
  have u := uint_reads 8
  have h : (K.codec.pair (K.codec.pair ((Codec.vec registryArgsCodec).pair (u64.pair (u64.pair (u8.pair (u8.pair
      (u64.pair (u64.pair (u64.pair u64)))))))))).Parses _ _ _ :=
    Parses.pair k (Parses.pair k (Parses.pair (Reads.vec registryArgs_reads)
      (u.pair (u.pair (u1.pair (u1.pair (u.pair (u.pair (u.pair u)))))))))
  rw [h.atOff h16 x]
  simp only [fieldsAt, eventRegistriesEnd, Nat.add_assoc, Nat.reduceAdd, Nat.reduceMul]
  refine and_congr ⟨fun g => g.2.2.2, fun g => ⟨?_, ?_, ?_, g⟩⟩ Iff.rfl <;> omega

theorem fields_at (K : Keys) {d : Bytes} (h16 : 16 ≤ d.length) (n : EventName) (x : n.Fields) :
    ((n.codec K).dec (d.drop 16)).map Prod.fst = some x ↔ EventFits d n ∧ x = fieldsAt K d n := by
  have k := key_reads K
  have u1 := uint_reads 1
  have u := uint_reads 8
  have three : (K.codec.pair (K.codec.pair K.codec)).Reads 96 _ := k.pair (k.pair k)
  have amounts : (K.codec.pair (K.codec.pair (u64.pair (u64.pair (u64.pair K.codec))))).Reads 120 _ :=
    k.pair (k.pair (u.pair (u.pair (u.pair k))))
  have owned : (K.codec.pair (K.codec.pair (K.codec.pair (u64.pair u64)))).Reads 112 _ :=
    k.pair (k.pair (k.pair (u.pair u)))
  cases n
  case fixedArgsCreate =>
    have h : (K.codec.pair u128).Reads 48 _ := k.pair (uint_reads 16)
    exact h.atOff h16 x
  case fixedArgsClose => exact three.atOff h16 x
  case operatorCreate => exact three.atOff h16 x
  case merkleClose => exact three.atOff h16 x
  case presaleCreate => exact presaleCreate_at K h16 x
  case escrowCreate =>
    have h : (K.codec.pair (K.codec.pair (u8.pair u64))).Reads 73 _ := k.pair (k.pair (u1.pair u))
    exact h.atOff h16 x
  case merkleCreate =>
    have h : (K.codec.pair (K.codec.pair (K.codec.pair (u64.pair (.raw 32))))).Reads 136 _ :=
      k.pair (k.pair (k.pair (u.pair (raw_reads 32))))
    exact h.atOff h16 x
  case deposit =>
    have h : (K.codec.pair (K.codec.pair (u64.pair (u64.pair (u64.pair (K.codec.pair u64)))))).Reads 128 _ :=
      k.pair (k.pair (u.pair (u.pair (u.pair (k.pair u)))))
    exact h.atOff h16 x
  case withdraw => exact amounts.atOff h16 x
  case claim => exact amounts.atOff h16 x
  case refund => exact owned.atOff h16 x
  case refresh => exact owned.atOff h16 x
  case unsold =>
    have h : (K.codec.pair (u64.pair u8)).Reads 41 _ := k.pair (u.pair u1)
    exact h.atOff h16 x
  case escrowClose =>
    have h : (K.codec.pair (K.codec.pair (K.codec.pair K.codec))).Reads 128 _ := k.pair (k.pair (k.pair k))
    exact h.atOff h16 x
  case creatorWithdraw =>
    have h : (K.codec.pair (u64.pair (K.codec.pair u8))).Reads 73 _ := k.pair (u.pair (k.pair u1))
    exact h.atOff h16 x
  case metadataCreate =>
    have h : (K.codec.pair (K.codec.pair .str)).Parses _ _ _ := Parses.pair k (Parses.pair k Codec.str_parses)
    refine Iff.trans (h.atOff h16 x) (and_congr ⟨fun g => g.2.2, fun g => ?_⟩ Iff.rfl)
    have g' : TextFits d 80 := g
    have := g'.1
    exact ⟨by omega, by omega, g⟩
  case metadataClose =>
    have h : (K.codec.pair K.codec).Reads 64 _ := k.pair k
    exact h.atOff h16 x
  case collectFee =>
    have h : (K.codec.pair (K.codec.pair u64)).Reads 72 _ := k.pair (k.pair u)
    exact h.atOff h16 x

theorem EventName.codec_lawful (K : Keys) (n : EventName) : (n.codec K).Lawful := by
  have h := registryArgsCodec_lawful
  cases n <;> simp only [EventName.codec] <;> lawful

theorem find_event (n : EventName) (bs : Bytes) (h : bs = eventDisc n) :
    EventName.all.find? (fun m => eventDisc m == bs) = some n := by
  subst h
  cases hf : EventName.all.find? (fun m => eventDisc m == eventDisc n) with
  | none =>
    have := List.find?_eq_none.1 hf n (by cases n <;> decide)
    simp at this
  | some m =>
    have := List.find?_some hf
    have e : eventDisc m = eventDisc n := by simpa using this
    rw [programEvents.inj m n e]

theorem eventDisc_length (n : EventName) : (eventDisc n).length = 8 := programEvents.len n

theorem eventTag_length : eventTag.length = 8 := by rw [eventTag_eq]; rfl

/-- **C78.** Data is read as an event exactly if it begins with the tag and the event's discriminator and holds its
fields, and each field is then the one at its offset. -/
theorem C78_reads (K : Keys) (d : Bytes) (n : EventName) (x : n.Fields) :
    decodeEvent K d = some ⟨n, x⟩ ↔
      d.take 8 = eventTagBytes ∧ (d.drop 8).take 8 = eventBytes n ∧ EventFits d n ∧ x = fieldsAt K d n := by
  have len : ∀ {m : EventName}, (d.drop 8).take 8 = eventDisc m → 16 ≤ d.length := by
    intro m h
    have := take_len h (programEvents.len m)
    rw [List.length_drop] at this
    omega
  rw [← eventTag_eq, ← eventDisc_eq]
  unfold decodeEvent
  by_cases ht : d.take 8 = eventTag
  · rw [if_pos ht]
    refine Iff.trans ?_ (Iff.symm (and_iff_right ht))
    constructor
    · intro h
      split at h
      · cases h
      · rename_i m hm
        have hd : eventDisc m = (d.drop 8).take 8 := by simpa using List.find?_some hm
        have h16 := len hd.symm
        cases hx : (m.codec K).dec (d.drop 16) with
        | none => rw [hx] at h; cases h
        | some y =>
          rw [hx] at h
          cases h
          have := (fields_at K h16 n y.1).1 (by rw [hx]; rfl)
          exact ⟨hd.symm, this.1, this.2⟩
    · rintro ⟨hd, hf, hx⟩
      have h16 := len hd
      have h := (fields_at K h16 n x).2 ⟨hf, hx⟩
      rw [find_event n _ hd]
      show Option.map _ _ = _
      cases hy : (n.codec K).dec (d.drop 16) with
      | none => rw [hy] at h; cases h
      | some y =>
        rw [hy] at h
        cases h
        rfl
  · rw [if_neg ht]
    exact ⟨fun g => (by cases g), fun g => absurd g.1 ht⟩

theorem decode_encode (K : Keys) (e : EventRecord) (hv : (e.1.codec K).valid e.2) (rest : Bytes) :
    decodeEvent K (encodeEvent K e ++ rest) = some e := by
  have h16 : (encodeEvent K e ++ rest).drop 16 = (e.1.codec K).enc e.2 ++ rest := by
    rw [show (16 : Nat) = 8 + 8 from rfl, ← List.drop_drop]
    unfold encodeEvent
    rw [List.append_assoc, List.append_assoc, List.drop_left' eventTag_length, List.drop_left' (eventDisc_length e.1)]
  unfold decodeEvent
  rw [h16]
  unfold encodeEvent
  rw [List.append_assoc, List.append_assoc, List.take_left' eventTag_length, List.drop_left' eventTag_length,
    List.take_left' (eventDisc_length e.1), if_pos rfl, find_event e.1 _ rfl]
  simp only
  rw [(EventName.codec_lawful K e.1).dec_enc e.2 rest hv]
  rfl

/-- **C78.** The instruction that carries an event is none of the program's own, and none of those is read as an
event. -/
theorem C78_inert (K : Keys) (d : Bytes) : decodeEvent K d = none ∨ decodeCall programSelectors K d = none := by
  cases he : decodeEvent K d with
  | none => exact .inl rfl
  | some e =>
    refine .inr ?_
    cases hc : decodeCall programSelectors K d with
    | none => rfl
    | some c =>
      have h1 := ((C78_reads K d e.1 e.2).1 he).1
      have h2 := ((C76_call programSelectors K d c.1 c.2).1 hc).1
      rw [h1, ← eventTag_eq] at h2
      exact absurd h2.symm (C77_distinct.2.2.2.1 c.1).1

theorem UnsoldTokenAction.byte_inj {a b : UnsoldTokenAction} (h : a.byte = b.byte) : a = b := by
  cases a <;> cases b <;> first | rfl | cases h

theorem PresaleProgress.byte_inj {a b : PresaleProgress} (h : a.byte = b.byte) : a = b := by
  cases a <;> cases b <;> first | rfl | cases h

/-- **C78.** Name and fields determine the event. -/
theorem C78_faithful {e e' : Event} (h : e.record = e'.record) : e = e' := by
  cases e <;> cases e'
  case performUnsoldBaseTokenAction.performUnsoldBaseTokenAction =>
    have h : ((_, _, _) : Addr × Nat × Nat) = (_, _, _) := eq_of_heq (Sigma.mk.inj_iff.1 h).2
    simp only [Prod.mk.injEq] at h
    rw [h.1, h.2.1, UnsoldTokenAction.byte_inj h.2.2]
  case creatorWithdraw.creatorWithdraw =>
    have h : ((_, _, _, _) : Addr × Nat × Addr × Nat) = (_, _, _, _) := eq_of_heq (Sigma.mk.inj_iff.1 h).2
    simp only [Prod.mk.injEq] at h
    rw [h.1, h.2.1, h.2.2.1, PresaleProgress.byte_inj h.2.2.2]
  all_goals (cases h <;> rfl)

/-! ## Every event that is emitted -/

/-- What is known of the numbers in a presale account. -/
theorem presale_numbers {w : World} (R : Reachable w) {a : Addr} {p : Presale} (h : w.presales a = some p) :
    p.presaleMode < 256 ^ 1 ∧ p.whitelistMode < 256 ^ 1 ∧ p.presaleMaximumCap < 256 ^ 8 ∧ p.presaleMinimumCap < 256 ^ 8 ∧
    p.presaleEndTime < 256 ^ 8 ∧ p.presaleSupply < 256 ^ 8 ∧ p.totalDeposit < 256 ^ 8 ∧ p.totalEscrow < 256 ^ 8 ∧
    p.lockDuration < 256 ^ 8 ∧ p.vestDuration < 256 ^ 8 ∧ p.totalClaimedToken < 256 ^ 8 ∧
    p.totalRefundedQuoteToken < 256 ^ 8 ∧ p.totalDepositFee < 256 ^ 8 := by
  obtain ⟨K, hK⟩ := C64_applies .presale p
  have v := presale_valid R h hK
  have v : (presaleWire K).valid p.wire := v
  obtain ⟨_, _, _, _, _, _, _, v7, v8, _, v10, v11, _, v13, v14, v15, v16, _, v18, v19, _, _, _, _, v24, v25, v26, _⟩ := v
  exact ⟨v7, v8, v10, v11, v13, v14, v15, v16, v18, v19, v24, v25, v26⟩

/-- What is known of the numbers in an escrow account. -/
theorem escrow_numbers {w : World} (R : Reachable w) (hclock : w.clock < (2 : Int) ^ 64) {a : Addr} {e : Escrow}
    (h : w.escrows.get? a = some e) :
    e.totalDeposit < 256 ^ 8 ∧ e.totalClaimedToken < 256 ^ 8 ∧ e.pendingClaimToken < 256 ^ 8 ∧
    e.totalDepositFee < 256 ^ 8 := by
  obtain ⟨K, hK⟩ := C64_applies .escrow e
  have v := escrow_valid R hclock h hK
  have v : (escrowWire K).valid e.wire := v
  obtain ⟨_, _, v2, v3, _, _, _, v7, _, _, v10, _⟩ := v
  exact ⟨v2, v3, v7, v10⟩

theorem collectable_le {w : World} (R : Reachable w) {a : Addr} {p : Presale} (h : w.presales a = some p) :
    collectableFee p ≤ p.totalDepositFee := by
  by_cases hm : p.presaleMode = 1
  · have := collectable_eq (R.winv.core.sale a p h).pinv.book hm
    omega
  · unfold collectableFee
    rw [if_neg hm]

theorem open_event {w' : World} (R' : Reachable w') {K : Keys} {P owner : Addr} {rc : Receipt} {e : Event}
    (h : OpenRecorded w' P owner rc) (hev : rc.event = some e) (hk : ∀ a ∈ Mentions e, K.known a) :
    (e.record.1.codec K).valid e.record.2 := by
  obtain ⟨p', hp', rfl⟩ := h
  cases hev
  have n := presale_numbers R' hp'
  exact ⟨hk _ (.head _), hk _ (.tail _ (.head _)), n.2.1, n.2.2.2.2.2.2.2.1⟩

theorem event_valid {w : World} (R : Reachable w) (hclock : w.clock < (2 : Int) ^ 64) {tx : Tx} {i : Ix} {w' : World}
    {rc : Receipt} (h : step w (.ix tx i) = .ok (w', rc)) {e : Event} (hev : rc.event = some e) {K : Keys}
    (hk : ∀ a ∈ Mentions e, K.known a) : (e.record.1.codec K).valid e.record.2 := by
  have R' : Reachable w' := R.step h
  have hclock' : w'.clock < (2 : Int) ^ 64 := by rw [step_clock h (fun _ e => (by cases e))]; exact hclock
  have args : (∀ a, i = .initFixedArgs a → K.known a.presale) → (i.call.1.codec K).valid i.call.2 := by
    intro hK
    by_contra hc
    have := (deserialize_iff K w tx i hK).2 hc
    have h' : execIx w tx i = .ok (w', rc) := h
    rw [this] at h'
    cases h'
  have rr := recorded R h
  cases i with
  | initFixedArgs a =>
    have rr : rc = _ := rr
    rw [rr] at hev
    cases hev
    have v := args (fun b hb => by cases hb; exact hk _ (.head _))
    obtain ⟨v1, _, v2, _⟩ := v
    exact ⟨v1, v2⟩
  | closeFixedArgs a =>
    have rr : rc = _ := rr
    rw [rr] at hev
    cases hev
  | revokeOperator a =>
    have rr : rc = _ := rr
    rw [rr] at hev
    cases hev
  | initPresale a =>
    obtain ⟨p', m, gross, hp', _, _, rr⟩ := rr
    rw [rr] at hev
    cases hev
    have n := presale_numbers R' hp'
    have v := args (fun b hb => by cases hb)
    obtain ⟨⟨v1, _, v2⟩, _⟩ := v
    exact ⟨hk _ (.head _), hk _ (.tail _ (.head _)), v2, n.2.2.2.2.2.2.2.2.1, n.2.2.2.2.2.2.2.2.2.1, n.2.1,
      n.1, v1.2.2.1, n.2.2.2.2.1, n.2.2.1, n.2.2.2.1⟩
  | createMerkle a =>
    have rr : rc = _ := rr
    rw [rr] at hev
    cases hev
    have v := args (fun b hb => by cases hb)
    obtain ⟨v1, v2⟩ := v
    exact ⟨hk _ (.head _), hk _ (.tail _ (.head _)), hk _ (.tail _ (.tail _ (.head _))), v2, v1⟩
  | closeMerkle a =>
    have rr : rc = _ := rr
    rw [rr] at hev
    cases hev
    exact ⟨hk _ (.head _), hk _ (.tail _ (.head _)), hk _ (.tail _ (.tail _ (.head _)))⟩
  | createEscrow a => exact open_event R' rr hev hk
  | createEscrowCreator a => exact open_event R' rr hev hk
  | createEscrowMerkle a => exact open_event R' rr hev hk
  | createOperator a =>
    have rr : rc = _ := rr
    rw [rr] at hev
    cases hev
    exact ⟨hk _ (.head _), hk _ (.tail _ (.head _)), hk _ (.tail _ (.tail _ (.head _)))⟩
  | deposit a =>
    obtain ⟨p, p', e, e', m, gross, _, hp', _, he', _, _, rr⟩ := rr
    rw [rr] at hev
    cases hev
    have n := presale_numbers R' hp'
    have k := escrow_numbers R' hclock' he'
    exact ⟨hk _ (.head _), hk _ (.tail _ (.head _)), Nat.lt_of_le_of_lt (Nat.sub_le _ _) k.1, k.1,
      n.2.2.2.2.2.2.1, hk _ (.tail _ (.tail _ (.head _))), Nat.lt_of_le_of_lt (Nat.sub_le _ _) k.2.2.2⟩
  | withdraw a =>
    obtain ⟨p, p', e, e', m, n, _, hp', he, he', _, hn, rr⟩ := rr
    rw [rr] at hev
    cases hev
    have n' := presale_numbers R' hp'
    have k := escrow_numbers R hclock he
    have k' := escrow_numbers R' hclock' he'
    exact ⟨hk _ (.head _), hk _ (.tail _ (.head _)),
      Nat.lt_of_le_of_lt (Nat.le_trans (Nat.sub_le _ _) (by rw [hn]; exact Nat.sub_le _ _)) k.1, k'.1,
      n'.2.2.2.2.2.2.1, hk _ (.tail _ (.tail _ (.head _)))⟩
  | claim a =>
    obtain ⟨p, p', e, e', m, n, _, hp', he, he', _, hn, rr⟩ := rr
    rw [rr] at hev
    cases hev
    have n' := presale_numbers R' hp'
    have k' := escrow_numbers R' hclock' he'
    exact ⟨hk _ (.head _), hk _ (.tail _ (.head _)),
      Nat.lt_of_le_of_lt (Nat.le_trans (Nat.sub_le _ _) (by rw [hn]; exact Nat.sub_le _ _)) k'.2.1, k'.2.1,
      n'.2.2.2.2.2.2.2.2.2.2.1, hk _ (.tail _ (.tail _ (.head _)))⟩
  | refund a =>
    obtain ⟨p, p', m, n, _, hp', _, hn, rr⟩ := rr
    rw [rr] at hev
    cases hev
    have n' := presale_numbers R' hp'
    exact ⟨hk _ (.head _), hk _ (.tail _ (.head _)), hk _ (.tail _ (.tail _ (.head _))),
      Nat.lt_of_le_of_lt (Nat.le_trans (Nat.sub_le _ _) (by rw [hn]; exact Nat.sub_le _ _)) n'.2.2.2.2.2.2.2.2.2.2.2.1,
      n'.2.2.2.2.2.2.2.2.2.2.2.1⟩
  | unsold a =>
    obtain ⟨p, m, n, hp, _, hn, rr⟩ := rr
    have n' := presale_numbers R hp
    have hlt : n < 256 ^ 8 := Nat.lt_of_le_of_lt (by rw [hn]; exact Nat.sub_le _ _) n'.2.2.2.2.2.1
    split at rr
    · rw [rr] at hev
      cases hev
      exact ⟨hk _ (.head _), hlt, (by decide : (UnsoldTokenAction.burn).byte < 256 ^ 1)⟩
    · rw [rr] at hev
      cases hev
      exact ⟨hk _ (.head _), hlt, (by decide : (UnsoldTokenAction.refund).byte < 256 ^ 1)⟩
  | closeEscrow a =>
    have rr : rc = _ := rr
    rw [rr] at hev
    cases hev
    exact ⟨hk _ (.head _), hk _ (.tail _ (.head _)), hk _ (.tail _ (.tail _ (.head _))),
      hk _ (.tail _ (.tail _ (.tail _ (.head _))))⟩
  | creatorWithdraw a =>
    obtain ⟨p, mint, vault, n, m, g, hp, _, hd, rr⟩ := rr
    rw [rr] at hev
    cases hev
    have n' := presale_numbers R hp
    refine ⟨hk _ (.head _), Nat.lt_of_le_of_lt (Nat.sub_le _ _) ?_, hk _ (.tail _ (.head _)), ?_⟩
    · rcases hd with ⟨_, _, _, _, hn⟩ | ⟨_, _, _, _, hn⟩
      · rw [hn]; exact Nat.lt_of_le_of_lt (Nat.min_le_left _ _) n'.2.2.2.2.2.2.1
      · rw [hn]; exact n'.2.2.2.2.2.1
    · show g.byte < 256 ^ 1
      cases g <;> decide
  | refresh a =>
    obtain ⟨e', he', rr⟩ := rr
    rw [rr] at hev
    cases hev
    have k' := escrow_numbers R' hclock' he'
    refine ⟨hk _ (.head _), hk _ (.tail _ (.head _)), hk _ (.tail _ (.tail _ (.head _))), ?_, k'.2.2.1⟩
    show w.clock.toNat < 256 ^ 8
    have : (256 : Nat) ^ 8 = 2 ^ 64 := by decide +kernel
    omega
  | createMetadata a =>
    have rr : rc = _ := rr
    rw [rr] at hev
    cases hev
    have v := args (fun b hb => by cases hb)
    exact ⟨hk _ (.head _), hk _ (.tail _ (.head _)), v⟩
  | closeMetadata a =>
    have rr : rc = _ := rr
    rw [rr] at hev
    cases hev
    exact ⟨hk _ (.head _), hk _ (.tail _ (.head _))⟩
  | collectFee a =>
    obtain ⟨p, m, hp, _, rr⟩ := rr
    rw [rr] at hev
    cases hev
    have n' := presale_numbers R hp
    have := collectable_le R hp
    exact ⟨hk _ (.head _), hk _ (.tail _ (.head _)),
      Nat.lt_of_le_of_lt (Nat.le_trans (Nat.sub_le _ _) this) n'.2.2.2.2.2.2.2.2.2.2.2.2⟩

/-- **C78.** Every event an instruction emits is read back from its bytes, whatever follows them: name, fields, each at
its offset. -/
theorem C78_recorded {w : World} (R : Reachable w) (hclock : w.clock < (2 : Int) ^ 64) {tx : Tx} {i : Ix} {w' : World}
    {rc : Receipt} (h : step w (.ix tx i) = .ok (w', rc)) {e : Event} (hev : rc.event = some e) {K : Keys}
    (hk : ∀ a ∈ Mentions e, K.known a) (rest : Bytes) :
    decodeEvent K (encodeEvent K e.record ++ rest) = some e.record ∧
    fieldsAt K (encodeEvent K e.record ++ rest) e.record.1 = e.record.2 :=
  have d := decode_encode K e.record (event_valid R hclock h hev hk) rest
  ⟨d, ((C78_reads K _ e.record.1 e.record.2).1 d).2.2.2.symm⟩

/-- **C78.** Two emitted events with the same bytes are the same event. -/
theorem C78_injective {w₁ w₂ : World} (R₁ : Reachable w₁) (R₂ : Reachable w₂) (c₁ : w₁.clock < (2 : Int) ^ 64)
    (c₂ : w₂.clock < (2 : Int) ^ 64) {tx₁ tx₂ : Tx} {i₁ i₂ : Ix} {w₁' w₂' : World} {rc₁ rc₂ : Receipt}
    (h₁ : step w₁ (.ix tx₁ i₁) = .ok (w₁', rc₁)) (h₂ : step w₂ (.ix tx₂ i₂) = .ok (w₂', rc₂)) {e₁ e₂ : Event}
    (hev₁ : rc₁.event = some e₁) (hev₂ : rc₂.event = some e₂) {K : Keys} (hk₁ : ∀ a ∈ Mentions e₁, K.known a)
    (hk₂ : ∀ a ∈ Mentions e₂, K.known a) (eq : encodeEvent K e₁.record = encodeEvent K e₂.record) : e₁ = e₂ := by
  have d₁ := (C78_recorded R₁ c₁ h₁ hev₁ hk₁ []).1
  have d₂ := (C78_recorded R₂ c₂ h₂ hev₂ hk₂ []).1
  rw [eq, d₂] at d₁
  exact C78_faithful (Option.some.inj d₁).symm


/-! ## Example -/

/-- Alice's refund of 301 as an indexer finds it: tag, discriminator, amount at 112, total at 120. -/
example :
    let K := Keys.ofList [Ex.sale, Ex.escrowOf Ex.alice, Ex.alice] (by decide +kernel)
    (match Ex.recordOf Ex.prorataDone (Ex.refund Ex.alice Ex.aliceQuote) with
    | some { event := some e, .. } =>
      let d := encodeEvent K e.record
      decide (d.take 8 = [228, 69, 165, 46, 81, 203, 154, 29] ∧ d.length = 128 ∧ numAt d 112 8 = 301 ∧ numAt d 120 8 = 305 ∧
      keyAt K d 80 = Ex.alice ∧ ∀ a ∈ Mentions e, K.known a)
    | _ => false) = true := by decide +kernel


end Verif
