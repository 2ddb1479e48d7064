import Verif.Model.Epochs
/-!
# When an announced change of a transfer fee should take effect
-/

namespace Verif.Spec

/-- An announcement: the epoch in which it was made, and the fee. -/
abbrev Notice := Nat × TransferFee

/-- `n` is followed by the announcements `later`, and none of them came before its two epochs of notice were over. -/
def Stands (n : Notice) (later : List Notice) : Prop := ∀ m ∈ later, n.1 + 2 ≤ m.1

/-- In epoch `t`, after the announcements `l` (in order), `f` is in force: it is the last announced fee whose two epochs
of notice passed undisturbed and are over; or there is none such and `f` is the fee there was before. -/
def InForce (before : TransferFee) (l : List Notice) (t : Nat) (f : TransferFee) : Prop :=
  (∃ l1 n l2, l = l1 ++ n :: l2 ∧ f = n.2 ∧ n.1 + 2 ≤ t ∧ Stands n l2 ∧
    ∀ l3 m l4, l2 = l3 ++ m :: l4 → m.1 + 2 ≤ t → ¬ Stands m l4) ∨
  (f = before ∧ ∀ l1 n l2, l = l1 ++ n :: l2 → n.1 + 2 ≤ t → ¬ Stands n l2)

/-- The announcements of changes of the fee of `a` in a history: those that succeed, with the epoch of each. -/
def notices (a : Addr) (e : EWorld) : List EOp → List Notice
  | [] => []
  | o :: os =>
    (match o with
      | .announce b f => if b = a ∧ (e.configs.get? a).isSome ∧ f.inRange = true then [(e.epoch, f)] else []
      | _ => []) ++ notices a (eapply e o) os

/-- Number of epochs that end in a history. -/
def epochs : List EOp → Nat
  | [] => 0
  | .nextEpoch :: os => epochs os + 1
  | _ :: os => epochs os

end Verif.Spec
