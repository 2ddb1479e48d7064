import Verif.Model.Merkle
/-!
# Byte formats

Borsh (instruction data, `PermissionedServerMetadata`) and the `repr(C)` layout of the zero-copy
accounts are both built from little-endian integers, fixed arrays and, for Borsh only, vectors with
a `u32` length. A `Codec` is a pair of a writer and a reader; a reader returns the value and the
bytes it did not use.
-/

namespace Verif

/-- A byte format: which values have a representation, how they are written, how they are read. -/
structure Codec (α : Type) where
  valid : α → Prop
  enc : α → Bytes
  dec : Bytes → Option (α × Bytes)

/-- The number written by little-endian bytes (`from_le_bytes`). -/
def leNat : Bytes → Nat
  | [] => 0
  | b :: bs => b.toNat + 256 * leNat bs

namespace Codec

/-- `n` raw bytes, `[u8; n]`. -/
def raw (n : Nat) : Codec Bytes where
  valid b := b.length = n
  enc b := b
  dec bs := if n ≤ bs.length then some (bs.take n, bs.drop n) else none

/-- Values of `α` read through another representation: `f` after reading, `g` before writing. -/
def map {α β : Type} (c : Codec α) (f : α → β) (g : β → α) (ok : β → Prop) : Codec β where
  valid b := ok b
  enc b := c.enc (g b)
  dec bs := match c.dec bs with
    | some (a, rest) => some (f a, rest)
    | none => none

/-- Unsigned integer of `n` bytes, little-endian: `u8`, `u16`, `u32`, `u64`, `u128`. -/
def uint (n : Nat) : Codec Nat := (raw n).map leNat (leBytes n) (fun v => v < 256 ^ n)

/-- One field after another. -/
def pair {α β : Type} (c : Codec α) (d : Codec β) : Codec (α × β) where
  valid x := c.valid x.1 ∧ d.valid x.2
  enc x := c.enc x.1 ++ d.enc x.2
  dec bs := match c.dec bs with
    | none => none
    | some (a, rest) => match d.dec rest with
      | none => none
      | some (b, rest') => some ((a, b), rest')

/-- No bytes. -/
def nothing : Codec Unit where
  valid _ := True
  enc _ := []
  dec bs := some ((), bs)

/-- A padding field of `n` bytes: zero when written, ignored when read. -/
def pad (n : Nat) : Codec Unit :=
  (raw n).map (fun _ => ()) (fun _ => List.replicate n 0) (fun _ => True)

/-- Reads `n` elements. -/
def decN {α : Type} (c : Codec α) : Nat → Bytes → Option (List α × Bytes)
  | 0, bs => some ([], bs)
  | n + 1, bs => match c.dec bs with
    | none => none
    | some (a, rest) => match decN c n rest with
      | none => none
      | some (as, rest') => some (a :: as, rest')

/-- `[T; n]`. -/
def array {α : Type} (n : Nat) (c : Codec α) : Codec (List α) where
  valid as := as.length = n ∧ ∀ a ∈ as, c.valid a
  enc as := as.flatMap c.enc
  dec bs := decN c n bs

/-- Borsh `Vec<T>`: a `u32` count and the elements. -/
def vec {α : Type} (c : Codec α) : Codec (List α) where
  valid as := as.length < 256 ^ 4 ∧ ∀ a ∈ as, c.valid a
  enc as := (uint 4).enc as.length ++ as.flatMap c.enc
  dec bs := match (uint 4).dec bs with
    | none => none
    | some (n, rest) => decN c n rest

/-- Values that do not pass `ok` are refused when read. -/
def guard {α : Type} (c : Codec α) (ok : α → Bool) : Codec α where
  valid a := c.valid a ∧ ok a = true
  enc a := c.enc a
  dec bs := match c.dec bs with
    | none => none
    | some (a, rest) => if ok a then some (a, rest) else none

end Codec

/-! ## Addresses -/

/-- Addresses as 32-byte strings. There are only `2^256` of them, so not every address of the model
can have a string of its own; `known` are those that do. Every string is an address. -/
structure Keys where
  enc : Addr → Bytes
  dec : Bytes → Addr
  len : ∀ a, (enc a).length = 32
  enc_dec : ∀ b, b.length = 32 → enc (dec b) = b

/-- The address has a 32-byte string that no other known address has. -/
def Keys.known (K : Keys) (a : Addr) : Prop := K.dec (K.enc a) = a

/-- `Pubkey`. -/
def Keys.codec (K : Keys) : Codec Addr := (Codec.raw 32).map K.dec K.enc K.known

end Verif
