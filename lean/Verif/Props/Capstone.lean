import Verif.SpecWire
import Verif.Props.Process
import Verif.Props.Selectors
import Verif.Props.Receipts
/-!
# C110: from the bytes delivered to the reference machine

One statement that joins the layers: selectors and offsets (C76, C77), account lists (C67), bytes kept by the runtime
(C81), the reference machine (C72) and the record of events and token operations (C75).
-/

namespace Verif
open Spec (Asks signatures Represents Named Does Recorded Stored Arises BankGenesis)

theorem signatures_eq (K : Keys) (acc : Bool) (c : Wire) : (c.raw K).tx acc = signatures K acc c := by
  unfold Raw.tx Wire.raw signatures
  simp only [List.filter_map, List.map_map]
  rfl

theorem asks_iff {P : ProgIds} {K : Keys} {c : Wire} {i : Ix} :
    Asks P K c i ↔ decodeCall programSelectors K (c.raw K).data = some i.call ∧ Spec.GoodFor P i (c.raw K).accounts := by
  rw [show i.call = ⟨i.call.1, i.call.2⟩ from rfl, C77_call]
  exact ⟨fun h => ⟨⟨h.selector, h.complete, h.arguments⟩, h.accounts⟩, fun h => ⟨h.1.1, h.1.2.1, h.1.2.2, h.2⟩⟩

/-- **C110.** A delivered call asks for at most one instruction. -/
theorem C110_asks_one {P : ProgIds} {K : Keys} {c : Wire} {i j : Ix} (hi : Asks P K c i) (hj : Asks P K c j) :
    i = j := by
  obtain ⟨h1, h2⟩ := asks_iff.1 hi
  obtain ⟨g1, g2⟩ := asks_iff.1 hj
  have e : i.call = j.call := Option.some.inj (h1.symm.trans g1)
  have a := (C67_binds P i.call (c.raw K).accounts i).2 ⟨rfl, h2⟩
  have b := (C67_binds P i.call (c.raw K).accounts j).2 ⟨e.symm, g2⟩
  exact Except.ok.inj (a.symm.trans b)

theorem represents_unique {D : Discs Kind} {K : Keys} {b b' : Bank} {w : World} (h : Represents D K b w)
    (h' : Represents D K b' w) : b = b' := by
  have hd : b.data = b'.data := by
    funext a
    by_cases hs : ∃ k v, Stored w k a v
    · obtain ⟨k, v, hv⟩ := hs
      rw [h.data k a v hv, h'.data k a v hv]
    · have hn : ∀ k v, ¬ Stored w k a v := fun k v hv => hs ⟨k, v, hv⟩
      rw [h.empty a hn, h'.empty a hn]
  have h1 := h.env.trans h'.env.symm
  have h2 := h.clock.trans h'.clock.symm
  have h3 := h.tk.trans h'.tk.symm
  cases b; cases b'
  cases h1; cases h2; cases h3; cases hd
  rfl

/-- **C110.** Bytes that stand for a reachable ledger, and any call delivered as keys, flags and data: the program
succeeds, leaving bytes `b'` and the record `rc`, exactly if the call asks for an instruction which the reference
machine allows in that ledger, `b'` stands for the ledger the reference machine gives, and `rc` is the record of that
change. -/
theorem C110_call (P : ProgIds) (K : Keys) {b : Bank} {w : World} (R : Reachable w) (hclock : w.clock < (2 : Int) ^ 63)
    (N : Named K w) (h : Represents programDiscs K b w) (acc : Bool) (c : Wire) (b' : Bank) (rc : Receipt) :
    process P programDiscs programSelectors K b acc c = .ok (b', rc) ↔
      ∃ i w', Asks P K c i ∧ Does w (signatures K acc c) i w' ∧ Recorded w i w' rc ∧
        Represents programDiscs K b' w' := by
  have key := C81_call P programDiscs programSelectors K R hclock N h acc c
  constructor
  · intro hp
    rw [hp] at key
    cases hr : execRaw P programSelectors K w acc (c.raw K) with
    | error e => rw [hr] at key; exact key.elim
    | ok x =>
      obtain ⟨w', rc'⟩ := x
      rw [hr] at key
      obtain ⟨rfl, rep⟩ := key
      obtain ⟨i, h1, h2, h3⟩ := execRaw_iff.1 hr
      rw [signatures_eq] at h3
      have := (C75_step_iff R (signatures K acc c) i w' rc).1 h3
      exact ⟨i, w', asks_iff.2 ⟨h1, h2⟩, this.1, this.2, rep⟩
  · rintro ⟨i, w', ha, hd, hrec, rep⟩
    obtain ⟨h1, h2⟩ := asks_iff.1 ha
    have h3 := (C75_step_iff R (signatures K acc c) i w' rc).2 ⟨hd, hrec⟩
    rw [← signatures_eq] at h3
    have hr : execRaw P programSelectors K w acc (c.raw K) = .ok (w', rc) := execRaw_iff.2 ⟨i, h1, h2, h3⟩
    rw [hr] at key
    cases hp : process P programDiscs programSelectors K b acc c with
    | error e => rw [hp] at key; exact key.elim
    | ok x =>
      obtain ⟨b2, rc2⟩ := x
      rw [hp] at key
      obtain ⟨rfl, rep2⟩ := key
      rw [represents_unique rep rep2]

/-- **C110** (refusals). The program turns a delivered call down exactly if it asks for no instruction, or for one the
reference machine does not allow. -/
theorem C110_refused (P : ProgIds) (K : Keys) {b : Bank} {w : World} (R : Reachable w)
    (hclock : w.clock < (2 : Int) ^ 63) (N : Named K w) (h : Represents programDiscs K b w) (acc : Bool) (c : Wire) :
    (∃ e, process P programDiscs programSelectors K b acc c = .error e) ↔
      ∀ i w', Asks P K c i → ¬ Does w (signatures K acc c) i w' := by
  constructor
  · rintro ⟨e, he⟩ i w' ha hd
    obtain ⟨rc, hs⟩ := (C72_does_iff R _ i w').2 hd
    have key := C81_call P programDiscs programSelectors K R hclock N h acc c
    obtain ⟨h1, h2⟩ := asks_iff.1 ha
    rw [← signatures_eq] at hs
    have hr : execRaw P programSelectors K w acc (c.raw K) = .ok (w', rc) := execRaw_iff.2 ⟨i, h1, h2, hs⟩
    rw [hr, he] at key
    exact key
  · intro hno
    cases hp : process P programDiscs programSelectors K b acc c with
    | error e => exact ⟨e, rfl⟩
    | ok x =>
      obtain ⟨i, w', ha, hd, -⟩ := (C110_call P K R hclock N h acc c x.1 x.2).1 hp
      exact (hno i w' ha hd).elim

/-- **C110** (histories). Start from an empty deployment, deliver any calls and let anything happen outside. The bytes
then stand for a ledger that arises in the reference machine, and the next call does what the reference machine does
with that ledger and nothing else. -/
theorem C110_history (P : ProgIds) (K : Keys) {b : Bank} (G : BankGenesis b) {ops : List BOp}
    (hk : ∀ o ∈ ops, o.Keyed) :
    ∃ w, Arises w ∧ Represents programDiscs K (brun P programDiscs programSelectors K b ops) w ∧
      ∀ acc c b' rc,
        process P programDiscs programSelectors K (brun P programDiscs programSelectors K b ops) acc c = .ok (b', rc) ↔
          ∃ i w', Asks P K c i ∧ Does w (signatures K acc c) i w' ∧ Recorded w i w' rc ∧
            Represents programDiscs K b' w' := by
  obtain ⟨w, R, hc, N, rep⟩ := C81_sound P programDiscs programSelectors K G hk
  exact ⟨w, (C72_reachable_iff w).1 R, rep, fun acc c b' rc => C110_call P K R hc N rep acc c b' rc⟩

/-- **C110** (conversely). Whatever the reference machine allows can be had: the call written as the interface
description says asks for that instruction, succeeds, and leaves bytes that stand for the machine's result. -/
theorem C110_served (P : ProgIds) (K : Keys) {b : Bank} {w w' : World} (R : Reachable w)
    (hclock : w.clock < (2 : Int) ^ 63) (N : Named K w) (h : Represents programDiscs K b w) {tx : Tx} {i : Ix}
    (hd : Does w tx i w') (hk : ∀ x, Spec.Shows P i x → K.known x) :
    ∃ c, Spec.Keyed c ∧ Asks P K c i ∧
      ∃ b' rc, process P programDiscs programSelectors K b tx.accept c = .ok (b', rc) ∧
        Represents programDiscs K b' w' := by
  obtain ⟨rc, hs⟩ := (C72_does_iff R tx i w').2 hd
  have hi : execIx w tx i = .ok (w', rc) := hs
  have hK : ∀ a, i = .initFixedArgs a → K.known a.presale := fun a e => hk a.presale (.inr ⟨a, e, rfl⟩)
  have hr := C67_sufficient P programSelectors K hK hi
  rw [← clientWire_raw hk] at hr
  have S := C81_call P programDiscs programSelectors K R hclock N h tx.accept (clientWire P programSelectors K i)
  rw [hr] at S
  cases h1 : process P programDiscs programSelectors K b tx.accept (clientWire P programSelectors K i) with
  | error e => rw [h1] at S; exact S.elim
  | ok x =>
    obtain ⟨b', rc'⟩ := x
    rw [h1] at S
    refine ⟨clientWire P programSelectors K i, clientWire_keyed P programSelectors K i, asks_iff.2 ⟨?_, ?_⟩, b', rc', h1,
      S.2⟩
    · have := C66_expressible programSelectors K hK hi []
      rwa [List.append_nil] at this
    · rw [clientWire_raw hk]
      exact ⟨Spec.declared P i, Spec.extra i, rfl, covers_refl _, fun _ => covers_refl _⟩

/-! ## Examples -/

namespace Ex

/-- Alice's further deposit of 100. -/
def furtherDeposit : Ix := .deposit (depositAcc alice aliceQuote 100)

theorem furtherDeposit_works : ∃ w' rc, step prorataOpen (.ix (tx [alice]) furtherDeposit) = .ok (w', rc) := by
  have : (match step prorataOpen (.ix (tx [alice]) furtherDeposit) with | .ok _ => true | .error _ => false) = true := by
    decide +kernel
  cases h : step prorataOpen (.ix (tx [alice]) furtherDeposit) with
  | error e => rw [h] at this; exact absurd this Bool.false_ne_true
  | ok x => exact ⟨x.1, x.2, rfl⟩

end Ex

/-- From an empty deployment calls lead to bytes on which a delivered call succeeds: it asks for the deposit, the
reference machine allows it and the new bytes stand for its result. -/
example : ∃ (K : Keys) (b : Bank) (l : List BOp) (c : Wire) (b' : Bank) (rc : Receipt) (w' : World), BankGenesis b ∧
    (∀ o ∈ l, o.Keyed) ∧ Asks exampleIds K c Ex.furtherDeposit ∧
    process exampleIds programDiscs programSelectors K (brun exampleIds programDiscs programSelectors K b l) true c =
      .ok (b', rc) ∧
    Does Ex.prorataOpen (signatures K true c) Ex.furtherDeposit w' ∧ Represents programDiscs K b' w' := by
  let names := (namesOf exampleIds (Ex.prorataOps ++ [.ix (Ex.tx [Ex.alice]) Ex.furtherDeposit])).dedup
  have hn : names.length ≤ 256 ^ 32 := by decide +kernel
  let b : Bank := { env := Ex.genesis.env, clock := Ex.genesis.clock, data := fun _ => none, tk := Ex.genesis.tk }
  have G := Ex.genesis_ok
  have hno : ∀ k a v, ¬ Stored Ex.genesis k a v := by
    intro k a v h
    cases k <;> cases h
  let K := Keys.ofList names (List.nodup_dedup _)
  have hkn : ∀ x, Spec.ShowsIn exampleIds (Ex.prorataOps ++ [.ix (Ex.tx [Ex.alice]) Ex.furtherDeposit]) x → K.known x :=
    fun x hx => Keys.ofList_known _ hn (List.mem_dedup.2 (mem_namesOf hx))
  have rep : Represents programDiscs K b Ex.genesis :=
    ⟨rfl, rfl, rfl, fun k a v h => (hno k a v h).elim, fun _ _ => rfl⟩
  have BG : BankGenesis b := ⟨fun _ => rfl, G.vaults, G.amounts, G.mints, by decide⟩
  have T0 : Tracks programDiscs K b Ex.genesis := ⟨⟨_, [], G, rfl⟩, by decide, fun k a v h => (hno k a v h).elim, rep⟩
  obtain ⟨l, h1, T⟩ := T0.follows exampleIds programSelectors Ex.prorataOps (by decide +kernel)
    fun x ⟨tx, i, hm, hx⟩ => hkn x ⟨tx, i, List.mem_append_left _ hm, hx⟩
  obtain ⟨w', rc, hs⟩ := Ex.furtherDeposit_works
  have hd := (C72_does_iff T.reach _ _ w').1 ⟨rc, hs⟩
  obtain ⟨c, -, ha, b', rc', hp, rep'⟩ := C110_served exampleIds K T.reach T.clock T.named T.rep hd
    fun x hx => hkn x ⟨_, _, List.mem_append_right _ List.mem_cons_self, hx⟩
  obtain ⟨i, w2, ha2, hd2, -, rep2⟩ := (C110_call exampleIds K T.reach T.clock T.named T.rep true c b' rc').1 hp
  cases C110_asks_one ha ha2
  exact ⟨K, b, l, c, b', rc', w2, BG, h1, ha, hp, hd2, rep2⟩

end Verif
