import Verif.Model.Bytes

/-! # Hex strings (crates/ethportal-api/src/utils/bytes.rs)

Strings are lists of characters. -/

namespace Verif.Hex

/-- The digit table of `hex::encode` (the `hex` crate, lower case). -/
def digit (n : Nat) : Char :=
  if n < 10 then Char.ofNat (48 + n) else Char.ofNat (87 + n)

/-- The digit table of `hex::encode_upper`. -/
def digitUpper (n : Nat) : Char :=
  if n < 10 then Char.ofNat (48 + n) else Char.ofNat (55 + n)

/-- `hex::encode`: two digits per byte, high nibble first. -/
def hexBody (dig : Nat → Char) : Bytes → List Char
  | [] => []
  | b :: bs => dig (b.toNat / 16) :: dig (b.toNat % 16) :: hexBody dig bs

/-- `hex_encode` (utils/bytes.rs:19-21). -/
def hexEncode (bs : Bytes) : List Char := '0' :: 'x' :: hexBody digit bs

/-- `hex_encode_upper` (utils/bytes.rs:54-56). -/
def hexEncodeUpper (bs : Bytes) : List Char := '0' :: 'x' :: hexBody digitUpper bs

/-- `hex_encode_compact` (utils/bytes.rs:44-51): up to 8 bytes in full, otherwise the first four and
last four digits. -/
def hexEncodeCompact (bs : Bytes) : List Char :=
  if bs.length ≤ 8 then hexEncode bs
  else
    let h := hexBody digit bs
    '0' :: 'x' :: (h.take 4 ++ '.' :: '.' :: h.drop (h.length - 4))

/-- `val` of the `hex` crate: the value of one digit, both cases accepted. -/
def digitVal (c : Char) : Option Nat :=
  let n := c.toNat
  if 48 ≤ n ∧ n ≤ 57 then some (n - 48)
  else if 65 ≤ n ∧ n ≤ 70 then some (n - 65 + 10)
  else if 97 ≤ n ∧ n ≤ 102 then some (n - 97 + 10)
  else none

inductive Err where
  | noPrefix
  | wrongPrefix
  | hexDecode
deriving DecidableEq, Repr

/-- `hex::decode`: odd length or a non-digit is an error. -/
def hexBodyDecode : List Char → Except Err Bytes
  | [] => .ok []
  | [_] => .error .hexDecode
  | a :: b :: rest =>
    match digitVal a, digitVal b with
    | some h, some l =>
      match hexBodyDecode rest with
      | .ok bs => .ok (UInt8.ofNat (16 * h + l) :: bs)
      | .error e => .error e
    | _, _ => .error .hexDecode

/-- `hex_decode` (utils/bytes.rs:24-41). `data.get(..2)` is by bytes: a string whose first character
is not ASCII fails there or at the prefix comparison, here always at the comparison; the only
two-byte strings whose lower case is `0x` are `0x` and `0X`. -/
def hexDecode : List Char → Except Err Bytes
  | a :: b :: rest =>
    if a = '0' ∧ (b = 'x' ∨ b = 'X') then hexBodyDecode rest else .error .wrongPrefix
  | _ => .error .noPrefix

end Verif.Hex
