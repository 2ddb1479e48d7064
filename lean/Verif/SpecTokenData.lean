import Verif.SpecBytes
/-!
# What the data of a Token-2022 account holds

Written without the readers of `Model/TokenData.lean`.
-/

namespace Verif.Spec

/-- The bytes hold exactly these entries of type and value, one after another: a type in two bytes, a length in two
bytes, the value. They end where fewer than two bytes are left, or at a type of zero, behind which nothing counts. -/
inductive Holds : Bytes → List (Nat × Bytes) → Prop where
  | nil : Holds [] []
  | stump (b : UInt8) : Holds [b] []
  | blank (rest : Bytes) : Holds (0 :: 0 :: rest) []
  | entry {t : Nat} {v rest : Bytes} {l : List (Nat × Bytes)} (a b c d : UInt8) (type : t = a.toNat + 256 * b.toNat)
      (used : 0 < t) (length : v.length = c.toNat + 256 * d.toNat) (more : Holds rest l) :
      Holds (a :: b :: c :: d :: (v ++ rest)) ((t, v) :: l)

/-- A tag of an optional field: 0 or 1 in four bytes. -/
def OptionTag (data : Bytes) (i : Nat) : Prop := numAt data i 4 ≤ 1

/-- The data holds an initialised mint with these entries. A length of 355 is that of another kind of account. -/
structure MintData (data : Bytes) (l : List (Nat × Bytes)) : Prop where
  notMultisig : data.length ≠ 355
  size : 82 ≤ data.length
  authority : OptionTag data 0
  initialised : byteAt data 45 = 1
  freezer : OptionTag data 46
  entries : (data.length = 82 ∧ l = []) ∨
    (166 ≤ data.length ∧ (∀ i, 82 ≤ i → i < 165 → byteAt data i = 0) ∧ byteAt data 165 = 1 ∧ Holds (data.drop 166) l)

/-- The data holds an initialised token account with these entries. -/
structure AccountData (data : Bytes) (l : List (Nat × Bytes)) : Prop where
  notMultisig : data.length ≠ 355
  size : 165 ≤ data.length
  delegate : OptionTag data 72
  initialised : byteAt data 108 = 1 ∨ byteAt data 108 = 2
  native : OptionTag data 109
  closer : OptionTag data 129
  entries : (data.length = 165 ∧ l = []) ∨ (166 ≤ data.length ∧ byteAt data 165 = 2 ∧ Holds (data.drop 166) l)

/-- The types of mint extensions a sale may have: transfer fee, transfer hook, metadata pointer, metadata. -/
def Harmless (t : Nat) : Prop := t = 1 ∨ t = 14 ∨ t = 18 ∨ t = 19

/-- The value of the first entry of a type. -/
inductive First (t : Nat) : List (Nat × Bytes) → Bytes → Prop where
  | here {v : Bytes} {l : List (Nat × Bytes)} : First t ((t, v) :: l) v
  | later {s : Nat} {u v : Bytes} {l : List (Nat × Bytes)} (other : s ≠ t) (h : First t l v) : First t ((s, u) :: l) v

/-- Where a fee configuration of 108 bytes keeps the fee of an epoch: behind byte 90 from the epoch recorded there on,
and behind byte 72 before. Each consists of an epoch, a maximum fee and basis points. -/
def feeDuring (v : Bytes) (epoch : Nat) : TransferFee :=
  if numAt v 90 8 ≤ epoch then { maximumFee := numAt v 98 8, basisPoints := numAt v 106 2 }
  else { maximumFee := numAt v 80 8, basisPoints := numAt v 88 2 }

/-- Entries as Token-2022 writes them: the type and the length of the value, low byte first, then the value. -/
def written : List (Nat × Bytes) → Bytes
  | [] => []
  | (t, v) :: l => UInt8.ofNat t :: UInt8.ofNat (t / 256) :: UInt8.ofNat v.length :: UInt8.ofNat (v.length / 256) ::
      (v ++ written l)

/-- The entries that are not metadata. -/
def effective (l : List (Nat × Bytes)) : List (Nat × Bytes) := l.filter fun x => x.1 ≠ 18 ∧ x.1 ≠ 19

end Verif.Spec
