import Verif.SpecSelectors
import Verif.Props.Offsets
/-!
# C77: discriminators and selectors
-/

namespace Verif
open Spec

/-! ## SHA-256 gives 32 bytes -/

namespace Sha256

theorem round_length {s : List Nat} (h : s.length = 8) (k : Nat) : (round s k).length = 8 := by
  unfold round
  split
  · rfl
  · exact h

theorem rounds_length {s : List Nat} (h : s.length = 8) (ks : List Nat) : (ks.foldl round s).length = 8 := by
  induction ks generalizing s with
  | nil => exact h
  | cons k ks ih => exact ih (round_length h k)

theorem compress_length {s : List Nat} (h : s.length = 8) (b : Bytes) : (compress s b).length = 8 := by
  unfold compress
  rw [List.length_zipWith, rounds_length h, h]
  rfl

theorem blocks_length {s : List Nat} (h : s.length = 8) (n : Nat) (bs : Bytes) : (blocks n bs s).length = 8 := by
  induction n generalizing bs s with
  | zero => exact h
  | succ n ih => exact ih (compress_length h _) _

end Sha256

theorem sha256_length (m : Bytes) : (sha256 m).length = 32 := by
  unfold sha256
  have h := Sha256.blocks_length (s := Sha256.initialState) rfl ((Sha256.padded m).length / 64) (Sha256.padded m)
  generalize Sha256.blocks _ _ _ = l at h
  rw [List.length_flatMap]
  have : ∀ l : List Nat, (l.map fun w => ((leBytes 4 w).reverse).length).sum = 4 * l.length := by
    intro l
    induction l with
    | nil => rfl
    | cons a l ih =>
      rw [List.map_cons, List.sum_cons, ih, List.length_reverse, Codec.leBytes_length, List.length_cons]
      omega
  rw [this, h]

/-! ## The tables -/

theorem accountDisc_eq (k : Kind) : accountDisc k = accountBytes k := by cases k <;> decide +kernel

theorem ixDisc_eq (n : IxName) : ixDisc n = selectorBytes n := by cases n <;> decide +kernel

theorem eventDisc_eq (n : EventName) : eventDisc n = eventBytes n := by cases n <;> decide +kernel

theorem eventTag_eq : eventTag = eventTagBytes := by decide +kernel

theorem idlTag_eq : idlTag = idlTagBytes := by decide +kernel

/-- Anchor's discriminators of the account types. -/
def programDiscs : Discs Kind where
  of := accountDisc
  len k := by rw [accountDisc_eq]; cases k <;> rfl
  inj k k' := by
    rw [accountDisc_eq, accountDisc_eq]
    cases k <;> cases k' <;> first | exact fun _ => rfl | exact fun h => absurd h (by decide)

/-- Anchor's selectors of the instructions. -/
def programSelectors : Discs IxName where
  of := ixDisc
  len n := by rw [ixDisc_eq]; cases n <;> rfl
  inj n n' := by
    rw [ixDisc_eq, ixDisc_eq]
    cases n <;> cases n' <;> first | exact fun _ => rfl | exact fun h => absurd h (by decide)

/-- Anchor's discriminators of the events. -/
def programEvents : Discs EventName where
  of := eventDisc
  len n := by rw [eventDisc_eq]; cases n <;> rfl
  inj n n' := by
    rw [eventDisc_eq, eventDisc_eq]
    cases n <;> cases n' <;> first | exact fun _ => rfl | exact fun h => absurd h (by decide)

/-! ## What follows -/

theorem zeroes_at {n : Nat} : (List.replicate n (0 : UInt8)).take 8 = List.replicate (min 8 n) 0 := List.take_replicate

/-- **C77.** The program's discriminators and selectors are the listed bytes. -/
theorem C77_bytes : (∀ k, accountDisc k = accountBytes k) ∧ (∀ n, ixDisc n = selectorBytes n) ∧
    (∀ n, eventDisc n = eventBytes n) ∧ eventTag = eventTagBytes ∧ idlTag = idlTagBytes :=
  ⟨accountDisc_eq, ixDisc_eq, eventDisc_eq, eventTag_eq, idlTag_eq⟩

/-- **C77.** No two account types, no two instructions and no two events share one, no instruction has the selector of
Anchor's own two, and none of them is zero. -/
theorem C77_distinct :
    (∀ k k', accountDisc k = accountDisc k' → k = k') ∧ (∀ n n', ixDisc n = ixDisc n' → n = n') ∧
    (∀ n n', eventDisc n = eventDisc n' → n = n') ∧ (∀ n, ixDisc n ≠ eventTag ∧ ixDisc n ≠ idlTag) ∧
    eventTag ≠ idlTag ∧ (∀ k, accountDisc k ≠ List.replicate 8 0) := by
  refine ⟨programDiscs.inj, programSelectors.inj, programEvents.inj, fun n => ?_, ?_, fun k => ?_⟩
  · rw [ixDisc_eq, eventTag_eq, idlTag_eq]
    cases n <;> decide
  · rw [eventTag_eq, idlTag_eq]; decide
  · rw [accountDisc_eq]
    cases k <;> decide

/-- **C77.** Zeroed or missing data is no account of the program. -/
theorem C77_zeroed (K : Keys) (k : Kind) (n : Nat) : readAccount programDiscs K k (List.replicate n 0) = none := by
  have h : ¬ (List.replicate n (0 : UInt8)).take 8 = programDiscs.of k := by
    intro e
    have hl := programDiscs.len k
    rw [← e, zeroes_at, List.length_replicate] at hl
    rw [zeroes_at, hl] at e
    exact C77_distinct.2.2.2.2.2 k e.symm
  unfold readAccount
  rw [if_neg h]

/-- **C77.** The whole wire format of accounts, without any parameter but the addresses' strings. -/
theorem C77_account (K : Keys) (k : Kind) (d : Bytes) (v : k.Value) :
    readAccount programDiscs K k d = some v ↔ d.take 8 = accountBytes k ∧ AccountFits d k ∧ v = accountAt K d k := by
  rw [C76_account, ← accountDisc_eq]
  exact Iff.rfl

/-- **C77.** The whole wire format of instructions. -/
theorem C77_call (K : Keys) (d : Bytes) (n : IxName) (x : n.Args) :
    decodeCall programSelectors K d = some ⟨n, x⟩ ↔ d.take 8 = selectorBytes n ∧ ArgsFit d n ∧ x = argsAt K d n := by
  rw [C76_call, ← ixDisc_eq]
  exact Iff.rfl

/-! ## Examples -/

/-- Test vectors of FIPS 180-4. -/
example : sha256 (ascii "abc") = [186, 120, 22, 191, 143, 1, 207, 234, 65, 65, 64, 222, 93, 174, 34, 35, 176, 3, 97, 163,
    150, 23, 122, 156, 180, 16, 255, 97, 242, 0, 21, 173] := by decide +kernel

example : (sha256 (ascii "abcdbcdecdefdefgefghfghighijhijkijkljklmklmnlmnomnopnopq")).take 4 = [36, 141, 106, 97] := by
  decide +kernel

/-- The discriminators in `/repo/idls/transfer_hook_counter.json`. -/
example : anchorDisc "global" "transfer_hook" = [220, 57, 220, 152, 126, 125, 97, 168] ∧
    anchorDisc "account" "CounterAccount" = [164, 8, 153, 71, 8, 44, 93, 22] := by decide +kernel

/-- A deposit of 258 without slices. -/
example : decodeCall programSelectors exampleKeys
    [242, 35, 198, 137, 82, 225, 242, 182, 2, 1, 0, 0, 0, 0, 0, 0, 0, 0, 0, 0] = some ⟨.deposit, (258, [])⟩ := by
  refine (C77_call _ _ _ _).2 ⟨rfl, ⟨by decide +kernel, fun i hi => absurd hi ?_⟩, ?_⟩
  · have : numAt [242, 35, 198, 137, 82, 225, 242, 182, 2, 1, 0, 0, 0, 0, 0, 0, 0, 0, 0, 0] 16 4 = 0 := by decide +kernel
    omega
  · show ((258, []) : Nat × List RemSlice) = (numAt _ 8 8, slicesAt _ 16)
    decide +kernel


end Verif
