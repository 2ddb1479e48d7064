import Verif.Model.Epochs
import Verif.Model.Layout
/-!
# Mints and token accounts as bytes

`token2022.rs` reads mints and token accounts through `StateWithExtensions` of spl-token-2022: the base state, then
padding up to byte 165, one byte telling mints from token accounts, then entries of a two-byte type, a two-byte length
and a value. The library is not in `/repo`; its readers are written down here from its source, with errors not told
apart. Which numbers are extension types differs between versions of the library, so the table is a parameter.
-/

namespace Verif

/-- Whether an extension belongs to mints or to token accounts (`ExtensionType::get_account_type`). -/
inductive Side where
  | mint
  | account
  deriving DecidableEq, Repr

/-- The numbers that are extension types (`ExtensionType`, spl-token-2022), 0 (`Uninitialized`) aside. Every version has
those named in `token2022.rs`: `TransferFeeConfig` = 1 (line 32), `TransferHook` = 14 (line 35), `MetadataPointer` = 18
(line 33), `TokenMetadata` = 19 (line 34), and `MemoTransfer` = 8 (line 240). -/
structure ExtTable where
  side : Nat → Option Side
  fee : side 1 = some .mint
  hook : side 14 = some .mint
  pointer : side 18 = some .mint
  metadata : side 19 = some .mint
  memo : side 8 = some .account

/-- `get_tlv_data_info` (spl-token-2022): the types of all entries. `none` is an error. The first argument bounds the
number of entries; the length of the data is enough. -/
def tlvTypes (T : ExtTable) : Nat → Bytes → Option (List Nat)
  | 0, _ => some []
  | n + 1, bs =>
    if bs.length < 2 then some []
    else
      let t := leNat (bs.take 2)
      if t = 0 then some []
      else if T.side t = none then none
      else if bs.length < 4 then none
      else
        let len := leNat ((bs.drop 2).take 2)
        if bs.length < 4 + len then none
        else (tlvTypes T n (bs.drop (4 + len))).map (t :: ·)

/-- `get_extension_indices` and `get_extension_bytes` (spl-token-2022): the value of the first entry of type `want`. The
search gives up at an empty entry and at an entry of the other side. -/
def tlvFind (T : ExtTable) (want : Nat) : Nat → Bytes → Option Bytes
  | 0, _ => none
  | n + 1, bs =>
    if bs.length < 4 then none
    else
      let t := leNat (bs.take 2)
      let len := leNat ((bs.drop 2).take 2)
      if t = want then
        if bs.length < 4 + len then none else some ((bs.drop 4).take len)
      else if t = 0 then none
      else if T.side t ≠ T.side want then none
      else tlvFind T want n (bs.drop (4 + len))

/-- `check_min_len_and_not_multisig`, `type_and_tlv_indices` and `unpack_tlv_data` (spl-token-2022): the entries behind
a base state of `base` bytes; `kind` is the byte that tells mints (1) from token accounts (2). -/
def unpackTlv (base : Nat) (kind : UInt8) (data : Bytes) : Option Bytes :=
  if data.length = 355 ∨ data.length < base then none
  else
    let rest := data.drop base
    if rest = [] then some []
    else if rest.length < 165 - base + 1 then none
    else if rest.take (165 - base) ≠ List.replicate (165 - base) 0 then none
    else if (rest.drop (165 - base)).take 1 ≠ [kind] then none
    else some (rest.drop (165 - base + 1))

/-- Tag of a `COption`. -/
def coptionTag (b : Bytes) : Bool := b == [0, 0, 0, 0] || b == [1, 0, 0, 0]

/-- `Mint::unpack` (spl-token-2022): an initialised mint; its supply. -/
def mintBase (data : Bytes) : Option Nat :=
  if coptionTag (data.take 4) && (data.drop 45).take 1 == [1] && coptionTag ((data.drop 46).take 4)
  then some (leNat ((data.drop 36).take 8)) else none

/-- `StateWithExtensions::<Mint>::unpack`: supply and entries. -/
def unpackMint (data : Bytes) : Option (Nat × Bytes) :=
  match mintBase data, unpackTlv 82 1 data with
  | some s, some tlv => some (s, tlv)
  | _, _ => none

/-- Entries of an unpacked state: `get_extension_types`. -/
def typesIn (T : ExtTable) (tlv : Bytes) : Option (List Nat) := tlvTypes T tlv.length tlv

/-- Entries of an unpacked state: `get_extension`, where a value must have the length of its Rust type. -/
def valueIn (T : ExtTable) (want size : Nat) (tlv : Bytes) : Option Bytes :=
  match tlvFind T want tlv.length tlv with
  | some v => if v.length = size then some v else none
  | none => none

/-- `is_supported_mint` (`token2022.rs:18-41`) on bytes; `none` is an error. -/
def isSupportedData (T : ExtTable) (program : TokenProgram) (native : Bool) (data : Bytes) : Option Bool :=
  if program = .splToken then some true
  else if native then some false
  else
    match unpackMint data with
    | none => none
    | some (_, tlv) => match typesIn T tlv with
      | none => none
      | some ts => some (ts.all fun e => !(e != 1 && e != 18 && e != 19 && e != 14))

/-- `TransferFee` (spl-token-2022) in the 18 bytes at `at`: epoch, maximum fee, basis points. -/
def epochFeeAt (v : Bytes) (at_ : Nat) : EpochFee :=
  { epoch := leNat ((v.drop at_).take 8),
    fee := { maximumFee := leNat ((v.drop (at_ + 8)).take 8), basisPoints := leNat ((v.drop (at_ + 16)).take 2) } }

/-- `TransferFeeConfig` (spl-token-2022): two authorities, the withheld amount, the older and the newer fee. -/
def feeConfigOf (v : Bytes) : FeeConfig := { older := epochFeeAt v 72, newer := epochFeeAt v 90 }

/-- The fee configuration `get_epoch_transfer_fee` finds (`token2022.rs:147-151`): any error of the search is taken for
a mint without fee. -/
def feeConfigIn (T : ExtTable) (tlv : Bytes) : Option FeeConfig := (valueIn T 1 108 tlv).map feeConfigOf

/-- `get_epoch_transfer_fee` (`token2022.rs:138-157`) on bytes; `none` is an error. -/
def epochFeeData (T : ExtTable) (program : TokenProgram) (epoch : Nat) (data : Bytes) : Option (Option TransferFee) :=
  if program = .splToken then some none
  else (unpackMint data).map fun x => (feeConfigIn T x.2).map (·.during epoch)

/-- `transfer_hook::get_program_id` (spl-token-2022): the hook program, unless it is all zero. -/
def hookIn (T : ExtTable) (tlv : Bytes) : Option Bytes :=
  match valueIn T 14 64 tlv with
  | none => none
  | some v => if v.drop 32 = List.replicate 32 0 then none else some (v.drop 32)

/-- `get_transfer_hook_program_id` (`token2022.rs:249-263`) on bytes; `none` is an error. -/
def hookData (T : ExtTable) (program : TokenProgram) (data : Bytes) : Option (Option Bytes) :=
  if program = .splToken then some none
  else (unpackMint data).map fun x => hookIn T x.2

/-- `Account::unpack` (spl-token-2022): an initialised token account (state 1, or 2 if frozen). -/
def accountBase (data : Bytes) : Bool :=
  coptionTag ((data.drop 72).take 4) && ((data.drop 108).take 1 == [1] || (data.drop 108).take 1 == [2]) &&
    coptionTag ((data.drop 109).take 4) && coptionTag ((data.drop 129).take 4)

/-- `is_transfer_memo_required` (`token2022.rs:230-247`) on bytes; `none` is an error. -/
def memoRequiredData (T : ExtTable) (program : TokenProgram) (data : Bytes) : Option Bool :=
  if program = .splToken then some false
  else if accountBase data then
    match unpackTlv 165 2 data with
    | none => none
    | some tlv => match valueIn T 8 1 tlv with
      | some v => some (v != [0])
      | none => some false
  else none

/-- The extension with a number. -/
def extOf (t : Nat) : Ext :=
  if t = 1 then .transferFeeConfig else if t = 14 then .transferHook else if t = 18 then .metadataPointer
  else if t = 19 then .tokenMetadata else .other t

/-- What the ledger shows of a mint with these bytes. -/
def mintOf (T : ExtTable) (K : Keys) (program : TokenProgram) (native : Bool) (epoch : Nat) (data : Bytes) :
    Option MintInfo :=
  match unpackMint data with
  | none => none
  | some (supply, tlv) => match typesIn T tlv with
    | none => none
    | some ts => some
        { program := program, isNative := native, exts := ts.map extOf,
          fee := (feeConfigIn T tlv).map (·.during epoch), hook := (hookIn T tlv).map K.dec, supply := supply }

end Verif
