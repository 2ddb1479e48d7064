import Verif.Model.Sha256
/-!
# Derived addresses

How addresses are found from their seeds: Solana's `Pubkey::create_program_address` and `find_program_address`, the test
whether 32 bytes are a point of the curve Ed25519 (curve25519-dalek's `CompressedEdwardsY::decompress`), and base58. These are in
libraries, not in `/repo`; `/repo` gives the program id (`lib.rs:37`), the seeds (`constants.rs:27-35`) and the authority
computed from them at compile time (`const_pda.rs:7-13`).
-/

namespace Verif

/-- `a ^ n` modulo `m` by repeated squaring; `n` must have at most as many binary digits as the first argument says. -/
def powMod (m : Nat) : Nat → Nat → Nat → Nat
  | 0, _, _ => 1 % m
  | k + 1, a, n => if n % 2 = 1 then a * powMod m k (a * a % m) (n / 2) % m else powMod m k (a * a % m) (n / 2)

namespace Ed25519

/-- The prime `2 ^ 255 - 19` of the field. -/
def prime : Nat := 57896044618658097711785492504343953926634992332820282019728792003956564819949

/-- The coefficient `d` of the curve (`EDWARDS_D`). -/
def d : Nat := 37095705934669439343138083508754565189542113879843219016388785533085940283555

/-- `FieldElement::from_bytes`: the top bit is dropped, the number taken modulo the prime. -/
def yOf (b : Bytes) : Nat := leNat b % 2 ^ 255 % prime

/-- `FieldElement::sqrt_ratio_i`, the part that says whether `u / v` is a square: `r = (u v^3) (u v^7)^((p-5)/8)`, then
`v r^2` is compared with `u` and `-u`. -/
def ratioIsSquare (u v : Nat) : Bool :=
  let r := u * v ^ 3 * powMod prime 256 (u * v ^ 7 % prime) ((prime - 5) / 8) % prime
  let check := v * r ^ 2 % prime
  check == u % prime || check == (prime - u % prime) % prime

/-- `bytes_are_curve_point`: `CompressedEdwardsY::decompress` succeeds: with `u = y^2 - 1`, `v = d y^2 + 1`, the ratio is a
square. -/
def onCurve (b : Bytes) : Bool :=
  let y := yOf b
  ratioIsSquare ((y ^ 2 + (prime - 1)) % prime) ((d * y ^ 2 + 1) % prime)

end Ed25519

/-- `Pubkey::create_program_address`: at most 16 seeds of at most 32 bytes; the hash must not be a point of the curve. -/
def createPda (seeds : List Bytes) (program : Bytes) : Option Bytes :=
  if seeds.length ≤ 16 ∧ ∀ s ∈ seeds, s.length ≤ 32 then
    let h := sha256 (seeds.flatten ++ program ++ ascii "ProgramDerivedAddress")
    if Ed25519.onCurve h then none else some h
  else none

/-- The loop of `Pubkey::try_find_program_address`, with `n` the next bump: it goes down and stops before 0. -/
def findPdaFrom (seeds : List Bytes) (program : Bytes) : Nat → Option (Bytes × UInt8)
  | 0 => none
  | n + 1 =>
    match createPda (seeds ++ [[UInt8.ofNat (n + 1)]]) program with
    | some a => some (a, UInt8.ofNat (n + 1))
    | none => findPdaFrom seeds program n

/-- `Pubkey::find_program_address`, `none` where it panics; also `const_crypto::ed25519::derive_program_address`. -/
def findPda (seeds : List Bytes) (program : Bytes) : Option (Bytes × UInt8) := findPdaFrom seeds program 255

/-- The digits of base58. -/
def base58Digits : List Char := "123456789ABCDEFGHJKLMNPQRSTUVWXYZabcdefghijkmnopqrstuvwxyz".toList

/-- The number a base58 text stands for. -/
def base58Value (s : String) : Nat := s.toList.foldl (fun v c => v * 58 + base58Digits.idxOf c) 0

/-- The 32 bytes of an address written in base58, highest first. Only used for the constants below, all of which
are below `2 ^ 256`. -/
def pubkey (s : String) : Bytes := (leBytes 32 (base58Value s)).reverse

/-- `lib.rs:37`. -/
def presaleId : Bytes := pubkey "presSVxnf9UU8jMxhgSMqaRwNiT36qeBdNeTRKjTdbj"
/-- The associated token account program. -/
def ataId : Bytes := pubkey "ATokenGPvbdGVxr1b2hvZbsiqW5xWH25efTNsLJA8knL"
/-- The SPL Token program. -/
def splTokenId : Bytes := pubkey "TokenkegQfeZyiNwAJbNbGKPFXCWuBvf9Ss623VQ5DA"
/-- The Token-2022 program. -/
def token2022Id : Bytes := pubkey "TokenzQdBNbLqP5VEhdkAS6EPFLC1PHnBqCXEpPxuEb"

/-- `presale_authority::{ID, BUMP}` (`const_pda.rs:7-13`). -/
def presaleAuthority : Option (Bytes × UInt8) := findPda [ascii "presale_authority"] presaleId

/-- `presale_authority_seeds!` (`macros.rs:1-8`): what the program signs with (`token2022.rs:346`,
`process_perform_unsold_base_token_action.rs:73`). -/
def authoritySeeds : List Bytes := [ascii "presale_authority", [(presaleAuthority.map Prod.snd).getD 0]]

/-- Anchor's `__event_authority` of the program (`#[event_cpi]`), which signs the calls that carry events. -/
def eventAuthority : Option (Bytes × UInt8) := findPda [ascii "__event_authority"] presaleId

/-- The bytes and the bump of an address, where `find_program_address` finds one; a key has no bump (0). Seeds as in
`AddrEnv.bytes`. -/
def locate (keys : Nat → Bytes) : Addr → Option (Bytes × UInt8)
  | .key n => some (keys n, 0)
  | .presaleAuthority => presaleAuthority
  | .presale b m q => do
    let x ← locate keys b
    let y ← locate keys m
    let z ← locate keys q
    findPda [ascii "presale", x.1, y.1, z.1] presaleId
  | .baseVault p => do
    let x ← locate keys p
    findPda [ascii "base_vault", x.1] presaleId
  | .quoteVault p => do
    let x ← locate keys p
    findPda [ascii "quote_vault", x.1] presaleId
  | .fixedPriceArgs p => do
    let x ← locate keys p
    findPda [ascii "fixed_price_param", x.1] presaleId
  | .escrow p o i => do
    let x ← locate keys p
    let y ← locate keys o
    findPda [ascii "escrow", x.1, y.1, leBytes 1 i] presaleId
  | .merkleRoot p v => do
    let x ← locate keys p
    findPda [ascii "merkle_root", x.1, leBytes 8 v] presaleId
  | .operator c o => do
    let x ← locate keys c
    let y ← locate keys o
    findPda [ascii "operator", x.1, y.1] presaleId
  | .serverMetadata p => do
    let x ← locate keys p
    findPda [ascii "server_metadata", x.1] presaleId
  | .ata o m t => do
    let x ← locate keys o
    let y ← locate keys m
    findPda [x.1, match t with | .splToken => splTokenId | .splToken2022 => token2022Id, y.1] ataId

end Verif
