import Verif.Model.Seeds
/-!
# SHA-256

The hash of `solana_program::hash::hashv`, `Pubkey::create_program_address` and of Anchor's discriminators (FIPS 180-4;
not in `/repo`). Words are natural numbers below `2 ^ 32`.
-/

namespace Verif
namespace Sha256

/-- Addition modulo `2 ^ 32`. -/
def add (a b : Nat) : Nat := (a + b) % 4294967296

/-- Rotation to the right. -/
def rotr (n x : Nat) : Nat := (x >>> n) ||| ((x <<< (32 - n)) % 4294967296)

/-- `Ch`, on words. -/
def ch (x y z : Nat) : Nat := (x &&& y) ^^^ ((4294967295 - x) &&& z)
/-- `Maj`. -/
def maj (x y z : Nat) : Nat := (x &&& y) ^^^ (x &&& z) ^^^ (y &&& z)
/-- `Σ0`. -/
def bigSigma0 (x : Nat) : Nat := rotr 2 x ^^^ rotr 13 x ^^^ rotr 22 x
/-- `Σ1`. -/
def bigSigma1 (x : Nat) : Nat := rotr 6 x ^^^ rotr 11 x ^^^ rotr 25 x
/-- `σ0`. -/
def sigma0 (x : Nat) : Nat := rotr 7 x ^^^ rotr 18 x ^^^ (x >>> 3)
/-- `σ1`. -/
def sigma1 (x : Nat) : Nat := rotr 17 x ^^^ rotr 19 x ^^^ (x >>> 10)

/-- Round constants: cube roots of the first 64 primes. -/
def roundConstants : List Nat :=
  [0x428a2f98, 0x71374491, 0xb5c0fbcf, 0xe9b5dba5, 0x3956c25b, 0x59f111f1, 0x923f82a4, 0xab1c5ed5,
    0xd807aa98, 0x12835b01, 0x243185be, 0x550c7dc3, 0x72be5d74, 0x80deb1fe, 0x9bdc06a7, 0xc19bf174,
    0xe49b69c1, 0xefbe4786, 0x0fc19dc6, 0x240ca1cc, 0x2de92c6f, 0x4a7484aa, 0x5cb0a9dc, 0x76f988da,
    0x983e5152, 0xa831c66d, 0xb00327c8, 0xbf597fc7, 0xc6e00bf3, 0xd5a79147, 0x06ca6351, 0x14292967,
    0x27b70a85, 0x2e1b2138, 0x4d2c6dfc, 0x53380d13, 0x650a7354, 0x766a0abb, 0x81c2c92e, 0x92722c85,
    0xa2bfe8a1, 0xa81a664b, 0xc24b8b70, 0xc76c51a3, 0xd192e819, 0xd6990624, 0xf40e3585, 0x106aa070,
    0x19a4c116, 0x1e376c08, 0x2748774c, 0x34b0bcb5, 0x391c0cb3, 0x4ed8aa4a, 0x5b9cca4f, 0x682e6ff3,
    0x748f82ee, 0x78a5636f, 0x84c87814, 0x8cc70208, 0x90befffa, 0xa4506ceb, 0xbef9a3f7, 0xc67178f2]

/-- Initial state: square roots of the first 8 primes. -/
def initialState : List Nat :=
  [0x6a09e667, 0xbb67ae85, 0x3c6ef372, 0xa54ff53a, 0x510e527f, 0x9b05688c, 0x1f83d9ab, 0x5be0cd19]

/-- Message schedule, latest word first: `n` further words. -/
def extend : Nat → List Nat → List Nat
  | 0, w => w
  | n + 1, w =>
    extend n (add (add (sigma1 (w.getD 1 0)) (w.getD 6 0)) (add (sigma0 (w.getD 14 0)) (w.getD 15 0)) :: w)

/-- One round with round constant plus schedule word `k`. -/
def round (s : List Nat) (k : Nat) : List Nat :=
  match s with
  | [a, b, c, d, e, f, g, h] =>
    let t1 := add (add h (bigSigma1 e)) (add (ch e f g) k)
    let t2 := add (bigSigma0 a) (maj a b c)
    [add t1 t2, a, b, c, add d t1, e, f, g]
  | s => s

/-- Big-endian number of four bytes. -/
def word (bs : Bytes) : Nat := bs.foldl (fun n b => n * 256 + b.toNat) 0

/-- Words of a byte string, `n` of them. -/
def words : Nat → Bytes → List Nat
  | 0, _ => []
  | n + 1, bs => word (bs.take 4) :: words n (bs.drop 4)

/-- One block of 64 bytes. -/
def compress (s : List Nat) (block : Bytes) : List Nat :=
  let w := (extend 48 (words 16 block).reverse).reverse
  List.zipWith add s ((List.zipWith add roundConstants w).foldl round s)

/-- Blocks of a padded message, `n` of them. -/
def blocks : Nat → Bytes → List Nat → List Nat
  | 0, _, s => s
  | n + 1, bs, s => blocks n (bs.drop 64) (compress s (bs.take 64))

/-- Padding: a one bit, zeros, the length in bits as eight bytes. -/
def padded (m : Bytes) : Bytes :=
  m ++ 0x80 :: (List.replicate ((119 - m.length % 64) % 64) 0 ++ (leBytes 8 (8 * m.length)).reverse)

end Sha256

/-- SHA-256. -/
def sha256 (m : Bytes) : Bytes :=
  (Sha256.blocks ((Sha256.padded m).length / 64) (Sha256.padded m) Sha256.initialState).flatMap
    fun w => (leBytes 4 w).reverse

end Verif
