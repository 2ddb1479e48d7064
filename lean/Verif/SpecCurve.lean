import Verif.Model.Codec
import Mathlib.Data.ZMod.Basic
/-!
# The curve Ed25519

Independent of how membership is tested: the twisted Edwards curve `-x² + y² = 1 - (121665/121666) x² y²` over the field with
`2^255 - 19` elements (RFC 8032).
-/

namespace Verif
namespace Spec

/-- The field. -/
abbrev Field := ZMod (2 ^ 255 - 19)

/-- The equation of the curve, without the denominator. -/
def OnEdwards (x y : Field) : Prop := 121666 * (y ^ 2 - x ^ 2) = 121666 - 121665 * x ^ 2 * y ^ 2

/-- The `y` of an encoded point: the lower 255 bits, least byte first. -/
def yCoordinate (b : Bytes) : Field := ((((List.range b.length).map fun i => (b.getD i 0).toNat * 256 ^ i).sum % 2 ^ 255 : Nat) : Field)

/-- The bytes encode a point. Only such bytes can be the public key of a signature: who checks one first
decodes the key to a point. -/
def PublicKey (b : Bytes) : Prop := ∃ x, OnEdwards x (yCoordinate b)

/-- The program id, byte by byte. -/
def programIdBytes : Bytes :=
  [12, 66, 112, 214, 40, 113, 197, 49, 23, 121, 99, 234, 196, 237, 127, 213, 172, 57, 96, 96, 62, 84, 131, 162, 65, 38,
    140, 187, 105, 35, 208, 222]

/-- The authority over all vaults: `4Xgt6XKZiowAGNdPWngVAwpYbSwAmbBnRBPtCFXhrypc`. -/
def authorityBytes : Bytes :=
  [52, 111, 148, 30, 80, 176, 233, 34, 109, 31, 251, 160, 124, 229, 160, 4, 154, 117, 230, 214, 113, 71, 203, 32, 234,
    1, 9, 3, 50, 127, 209, 145]

/-- Who signs the calls that carry events: `7fPLVKP7zpTimvPZpVyVtwSk6Pjg894ESYfashmS48C8`. -/
def eventAuthorityBytes : Bytes :=
  [98, 251, 114, 156, 170, 87, 24, 56, 26, 86, 134, 183, 56, 72, 184, 197, 141, 95, 188, 143, 105, 87, 25, 101, 120,
    108, 235, 146, 32, 94, 131, 9]

end Spec
end Verif
