import Verif.Model.Bytes

/-! # Accept codes (crates/ethportal-api/src/types/accept_code.rs) -/

namespace Verif

/-- `AcceptCode` (accept_code.rs:149-166). -/
inductive AcceptCode where
  | accepted | declined | alreadyStored | notWithinRadius | rateLimited
  | inboundTransferInProgress | unspecified
  deriving DecidableEq, Repr

/-- `From<AcceptCode> for u8` (accept_code.rs:182-194). -/
def AcceptCode.toByte : AcceptCode → UInt8
  | .accepted => 0
  | .declined => 1
  | .alreadyStored => 2
  | .notWithinRadius => 3
  | .rateLimited => 4
  | .inboundTransferInProgress => 5
  | .unspecified => 255

/-- `From<u8> for AcceptCode` (accept_code.rs:196-208). -/
def AcceptCode.ofByte (b : UInt8) : AcceptCode :=
  if b = 0 then .accepted
  else if b = 1 then .declined
  else if b = 2 then .alreadyStored
  else if b = 3 then .notWithinRadius
  else if b = 4 then .rateLimited
  else if b = 5 then .inboundTransferInProgress
  else .unspecified

/-- Protocol limit of an accept list: `VariableList<AcceptCode, U64>`, `BitList<U64>`
(accept_code.rs:15,49). -/
abbrev maxAcceptCodes : Nat := 64

/-! ## `BitList<U64>` of `ethereum_ssz`

The crate is not part of `/repo`. Modelled from its published behaviour: bits are packed eight per
byte, least significant bit first, followed by a single delimiter bit; decoding finds the highest
set bit, requires it to lie in the last byte and the resulting length to be at most the limit. -/

/-- Number whose binary digits, least significant first, are the given bits. -/
def bitsToNat : List Bool → Nat
  | [] => 0
  | b :: bs => (if b then 1 else 0) + 2 * bitsToNat bs

/-- The low `n` bits of a number, least significant first. -/
def natToBits : Nat → Nat → List Bool
  | 0, _ => []
  | n + 1, v => (v % 2 == 1) :: natToBits n (v / 2)

/-- `BitList::as_ssz_bytes`: bits, delimiter bit, zero padding up to a whole byte. The value is
written least significant byte first into `len / 8 + 1` bytes. -/
def bitlistEncode (bits : List Bool) : Bytes :=
  toLe (bits.length / 8 + 1) (bitsToNat (bits ++ [true]))

/-- Position of the highest set bit (`highest_set_bit`), `none` for zero. -/
def highestSetBit (v : Nat) : Option Nat := if v = 0 then none else some v.log2

/-- `BitList::from_ssz_bytes`. `none` is any decoding error (missing delimiter, surplus bytes,
too long). -/
def bitlistDecode (limit : Nat) (bs : Bytes) : Option (List Bool) :=
  let v := fromLe bs
  match highestSetBit v with
  | none => none
  | some len =>
    if len / 8 + 1 ≠ bs.length then none
    else if len ≤ limit then some (natToBits len v)
    else none

/-! ## `AcceptCodeList` -/

/-- `AcceptCodeList::encode` (accept_code.rs:45-55). The list type cannot hold more than 64 codes
(`VariableList<_, U64>`), so the `BitList` constructor cannot fail. `v1` is
`protocol_version.is_v1_enabled()`. -/
def acceptEncode (v1 : Bool) (codes : List AcceptCode) : Bytes :=
  if v1 then codes.map AcceptCode.toByte
  else bitlistEncode (codes.map (fun c => c == .accepted))

/-- `AcceptCodeList::decode` (accept_code.rs:57-78). Version 1 is an SSZ list of single bytes with
limit 64, version 0 a bit list with limit 64. The `set` loop of version 0 becomes a map. -/
def acceptDecode (v1 : Bool) (bs : Bytes) : Option (List AcceptCode) :=
  if v1 then
    if bs.length ≤ maxAcceptCodes then some (bs.map AcceptCode.ofByte) else none
  else
    match bitlistDecode maxAcceptCodes bs with
    | none => none
    | some bits => some (bits.map (fun b => if b then .accepted else .declined))

/-- `AcceptCodeList::all_declined` (accept_code.rs:41-43). -/
def allDeclined (codes : List AcceptCode) : Bool := !(codes.contains .accepted)

end Verif
