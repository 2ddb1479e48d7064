import Verif.Model.Codec
/-!
# Program-derived addresses as bytes

The rest of the model treats addresses as symbols. Here they are 32-byte strings: a key is an arbitrary string, a
program-derived address is the hash of its seeds, a bump, the program id and a marker.
-/

namespace Verif

/-- A string constant as bytes. -/
def ascii (s : String) : Bytes := s.toList.map fun c => UInt8.ofNat c.toNat

/-- What addresses depend on: the keys' strings, SHA-256, the bump found for each derived address, and the ids of the
programs (`lib.rs:37` `declare_id!`; associated token, SPL Token and Token-2022 programs). -/
structure AddrEnv where
  keyBytes : Nat → Bytes
  hash : Bytes → Bytes
  bump : Addr → UInt8
  programId : Bytes
  ataProgramId : Bytes
  splTokenId : Bytes
  token2022Id : Bytes
  lenKey : ∀ n, (keyBytes n).length = 32
  lenHash : ∀ b, (hash b).length = 32
  lenProgram : programId.length = 32
  lenAta : ataProgramId.length = 32
  lenSpl : splTokenId.length = 32
  len2022 : token2022Id.length = 32

/-- Id of a token program. -/
def AddrEnv.tokenProgramId (E : AddrEnv) : TokenProgram → Bytes
  | .splToken => E.splTokenId
  | .splToken2022 => E.token2022Id

/-- What `Pubkey::create_program_address` hashes: the seeds end to end, the bump as last seed, the program id and
`PDA_MARKER` (Solana SDK, not in `/repo`). -/
def AddrEnv.preimage (E : AddrEnv) (self : Addr) (seeds program : Bytes) : Bytes :=
  seeds ++ (E.bump self :: (program ++ ascii "ProgramDerivedAddress"))

/-- The 32 bytes of an address. Seeds: `constants.rs:27-35`, `const_pda.rs:7-10`,
`process_initialize_presale.rs:18-23,40-43,54-57`, `process_initialize_extra_presale_params.rs:9-12`,
`process_create_permissionless_escrow.rs:16-21`, `process_create_permissioned_escrow_with_creator.rs:24-29`,
`process_create_permissioned_escrow_with_merkle_proof.rs:31-36`, `process_create_merkle_root_config.rs:19-23`,
`process_create_operator.rs:8-12`, `process_create_permissioned_server_metadata.rs:14-17`; associated token
accounts: wallet, token program, mint. -/
def AddrEnv.bytes (E : AddrEnv) : Addr → Bytes
  | .key n => E.keyBytes n
  | .presaleAuthority => E.hash (E.preimage .presaleAuthority (ascii "presale_authority") E.programId)
  | .presale b m q =>
    E.hash (E.preimage (.presale b m q) (ascii "presale" ++ (E.bytes b ++ (E.bytes m ++ E.bytes q))) E.programId)
  | .baseVault p => E.hash (E.preimage (.baseVault p) (ascii "base_vault" ++ E.bytes p) E.programId)
  | .quoteVault p => E.hash (E.preimage (.quoteVault p) (ascii "quote_vault" ++ E.bytes p) E.programId)
  | .fixedPriceArgs p => E.hash (E.preimage (.fixedPriceArgs p) (ascii "fixed_price_param" ++ E.bytes p) E.programId)
  | .escrow p o i =>
    E.hash (E.preimage (.escrow p o i) (ascii "escrow" ++ (E.bytes p ++ (E.bytes o ++ leBytes 1 i))) E.programId)
  | .merkleRoot p v =>
    E.hash (E.preimage (.merkleRoot p v) (ascii "merkle_root" ++ (E.bytes p ++ leBytes 8 v)) E.programId)
  | .operator c o =>
    E.hash (E.preimage (.operator c o) (ascii "operator" ++ (E.bytes c ++ E.bytes o)) E.programId)
  | .serverMetadata p => E.hash (E.preimage (.serverMetadata p) (ascii "server_metadata" ++ E.bytes p) E.programId)
  | .ata o m t =>
    E.hash (E.preimage (.ata o m t) (E.bytes o ++ (E.tokenProgramId t ++ E.bytes m)) E.ataProgramId)

/-- The seeds of a derived address, end to end, and the program it belongs to. -/
def AddrEnv.seeds (E : AddrEnv) : Addr → Option (Bytes × Bytes)
  | .key _ => none
  | .presaleAuthority => some (ascii "presale_authority", E.programId)
  | .presale b m q => some (ascii "presale" ++ (E.bytes b ++ (E.bytes m ++ E.bytes q)), E.programId)
  | .baseVault p => some (ascii "base_vault" ++ E.bytes p, E.programId)
  | .quoteVault p => some (ascii "quote_vault" ++ E.bytes p, E.programId)
  | .fixedPriceArgs p => some (ascii "fixed_price_param" ++ E.bytes p, E.programId)
  | .escrow p o i => some (ascii "escrow" ++ (E.bytes p ++ (E.bytes o ++ leBytes 1 i)), E.programId)
  | .merkleRoot p v => some (ascii "merkle_root" ++ (E.bytes p ++ leBytes 8 v), E.programId)
  | .operator c o => some (ascii "operator" ++ (E.bytes c ++ E.bytes o), E.programId)
  | .serverMetadata p => some (ascii "server_metadata" ++ E.bytes p, E.programId)
  | .ata o m t => some (E.bytes o ++ (E.tokenProgramId t ++ E.bytes m), E.ataProgramId)

/-- What is hashed for an address, if it is a derived one. -/
def AddrEnv.message (E : AddrEnv) (a : Addr) : Option Bytes :=
  (E.seeds a).map fun s => E.preimage a s.1 s.2

end Verif
