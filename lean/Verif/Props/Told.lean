import Verif.SpecTold
import Verif.Props.EventData
import Verif.Props.Offsets
/-!
# C78, C76: the event an observer reconstructs is the one emitted, and arguments by name

`C78_recorded` compares the bytes with the list of fields of the model (`Event.record`). Here the observer of
`SpecTold.lean`, who knows only `events.rs`, reconstructs the event itself. Added when a mutant that swapped the bytes
of the two unsold actions passed `C78_recorded`.
-/

namespace Verif
open Spec

/-- The observer's reading of the fields the model lists is the event. -/
theorem eventAt_of_fields (K : Keys) (d : Bytes) (e : Event) (h : fieldsAt K d e.record.1 = e.record.2) :
    eventAt K d e.record.1 = some e := by
  cases e
  case performUnsoldBaseTokenAction p t a =>
    have h : ((_, _, _) : Addr × Nat × Nat) = (_, _, _) := h
    simp only [Prod.mk.injEq] at h
    show Option.map _ (actionOf (numAt d 56 1)) = _
    rw [h.1, h.2.1, h.2.2]
    cases a <;> rfl
  case creatorWithdraw p m c g =>
    have h : ((_, _, _, _) : Addr × Nat × Addr × Nat) = (_, _, _, _) := h
    simp only [Prod.mk.injEq] at h
    show Option.map _ (progressOf (numAt d 88 1)) = _
    rw [h.1, h.2.1, h.2.2.1, h.2.2.2]
    cases g <;> rfl
  all_goals (cases h; rfl)

/-- **C78.** Whatever follows them, the bytes of an emitted event tell an observer who knows only the declarations of
`events.rs` of exactly that event, and of no other. -/
theorem C78_told {w : World} (R : Reachable w) (hclock : w.clock < (2 : Int) ^ 64) {tx : Tx} {i : Ix} {w' : World}
    {rc : Receipt} (h : step w (.ix tx i) = .ok (w', rc)) {e : Event} (hev : rc.event = some e) {K : Keys}
    (hk : ∀ a ∈ Mentions e, K.known a) (rest : Bytes) (e' : Event) :
    Tells K (encodeEvent K e.record ++ rest) e' ↔ e' = e := by
  have d := (C78_recorded R hclock h hev hk rest).1
  have r := (C78_reads K _ e.record.1 e.record.2).1 d
  have a := eventAt_of_fields K _ e r.2.2.2.symm
  constructor
  · rintro ⟨_, n, hn, _, hat⟩
    have : n = e.record.1 := by
      refine programEvents.inj n _ ?_
      rw [r.2.1, ← eventDisc_eq, ← eventDisc_eq] at hn
      exact hn.symm
    subst this
    rw [a] at hat
    exact (Option.some.inj hat).symm
  · rintro rfl
    exact ⟨r.1, _, r.2.1, r.2.2.1, a⟩

/-- **C76.** Data is taken as the call of an instruction exactly if it begins with the selector of the function called,
is long enough, and carries the instruction's arguments, each by its name at its offset. -/
theorem C76_carries (D : Discs IxName) (K : Keys) (d : Bytes) (i : Ix) :
    decodeCall D K d = some i.call ↔ d.take 8 = D.of (calledName i) ∧ ArgsFit d (calledName i) ∧ Carries K d i := by
  have key := C76_call D K d i.call.1 i.call.2
  refine key.trans ?_
  cases i
  case initFixedArgs a =>
    refine and_congr_right fun _ => and_congr_right fun _ => ?_
    show ((_, _, _, _) : Addr × Nat × Nat × Unit) = (_, _, _, _) ↔ _
    simp only [Prod.mk.injEq, and_true, Carries]
  case initPresale a =>
    refine and_congr_right fun _ => and_congr_right fun _ => ?_
    show ((_, _) : InitializePresaleArgs × List RemSlice) = (_, _) ↔ _
    simp only [Prod.mk.injEq, Carries]
  case createMerkle a =>
    refine and_congr_right fun _ => and_congr_right fun _ => ?_
    show ((_, _) : Bytes × Nat) = (_, _) ↔ _
    simp only [Prod.mk.injEq, Carries]
  case createEscrowCreator a =>
    refine and_congr_right fun _ => and_congr_right fun _ => ?_
    show ((_, _, _) : Nat × Nat × Unit) = (_, _, _) ↔ _
    simp only [Prod.mk.injEq, and_true, Carries]
  case createEscrowMerkle a =>
    refine and_congr_right fun _ => and_congr_right fun _ => ?_
    show ((_, _, _, _) : List Bytes × Nat × Nat × Unit) = (_, _, _, _) ↔ _
    simp only [Prod.mk.injEq, and_true, Carries]
  case deposit a =>
    refine and_congr_right fun _ => and_congr_right fun _ => ?_
    show ((_, _) : Nat × List RemSlice) = (_, _) ↔ _
    simp only [Prod.mk.injEq, Carries]
  case withdraw a =>
    refine and_congr_right fun _ => and_congr_right fun _ => ?_
    show ((_, _) : Nat × List RemSlice) = (_, _) ↔ _
    simp only [Prod.mk.injEq, Carries]
  case claim a => exact Iff.rfl
  case refund a => exact Iff.rfl
  case unsold a => exact Iff.rfl
  case creatorWithdraw a => exact Iff.rfl
  case collectFee a => exact Iff.rfl
  case createMetadata a => exact Iff.rfl
  all_goals exact and_congr_right fun _ => and_congr_right fun _ => ⟨fun _ => trivial, fun _ => rfl⟩

/-! ## Example -/

/-- Alice's refund of 301: an observer reads the sale, the escrow, the owner, the amount and the total so far. -/
example :
    let K := Keys.ofList [Ex.sale, Ex.escrowOf Ex.alice, Ex.alice] (by decide +kernel)
    (match Ex.recordOf Ex.prorataDone (Ex.refund Ex.alice Ex.aliceQuote) with
    | some { event := some e, .. } =>
      decide (eventAt K (encodeEvent K e.record) .refund =
        some (.withdrawRemainingQuote Ex.sale (Ex.escrowOf Ex.alice) Ex.alice 301 305) ∧
        ∀ a ∈ Mentions e, K.known a)
    | _ => false) = true := by decide +kernel

/-- Alice's call to deposit at most 1000: the selector, then the amount at 8. -/
example :
    let K := Keys.ofList [] (by decide +kernel)
    let i : Ix := .deposit (Ex.depositAcc Ex.alice Ex.aliceQuote 1000)
    let d := encodeCall programSelectors K i.call
    d.take 8 = programSelectors.of .deposit ∧ numAt d 8 8 = 1000 ∧ (decodeCall programSelectors K d).isSome = true := by
  decide +kernel

/-- The byte 1 tells of a burn. -/
example : actionOf 1 = some .burn ∧ progressOf 3 = some .failed ∧ actionOf 2 = none := ⟨rfl, rfl, rfl⟩

end Verif
