import Verif.Model.Bytes

/-! # RLP, as far as the entries of node records need it

These definitions model `alloy-rlp` 0.3.12 (Cargo.lock), which is used at crates/ethportal-api/src/types/protocol_info.rs and
protocol_versions.rs; they are not in a file of `/repo`. The buffer that is read from is an argument, and what is left of it is
part of the result. -/

namespace Verif.Rlp

/-- `alloy_rlp::Error`, the cases that occur. -/
inductive Err where
  | overflow | leadingZero | inputTooShort | nonCanonicalSingleByte | nonCanonicalSize
  | unexpectedList | unexpectedString | unexpectedLength
  | listLengthMismatch (expected got : Nat)
  | custom
deriving DecidableEq, Repr

/-- `to_be_bytes_trimmed!`: big-endian, without zeros in front. -/
def trimmed (v : Nat) : Bytes :=
  if v = 0 then [] else trimmed (v / 256) ++ [UInt8.ofNat (v % 256)]

/-- `Encodable for u8, u64`. -/
def encodeInt (v : Nat) : Bytes :=
  if v = 0 then [0x80]
  else if v < 0x80 then [UInt8.ofNat v]
  else UInt8.ofNat (0x80 + (trimmed v).length) :: trimmed v

/-- `length` of the same. -/
def lengthInt (v : Nat) : Nat := if v < 0x80 then 1 else 1 + (trimmed v).length

/-- `length_of_length`. -/
def lengthOfLength (n : Nat) : Nat := if n < 56 then 1 else 1 + (trimmed n).length

/-- `Header`. -/
structure Header where
  list : Bool
  length : Nat
deriving DecidableEq, Repr

/-- `Header::encode`. -/
def Header.encode (h : Header) : Bytes :=
  if h.length < 56 then [UInt8.ofNat ((if h.list then 0xc0 else 0x80) + h.length)]
  else UInt8.ofNat ((if h.list then 0xf7 else 0xb7) + (trimmed h.length).length) :: trimmed h.length

/-- `static_left_pad`, followed by `from_be_bytes`. -/
def leftPad (size : Nat) (bs : Bytes) : Except Err Nat :=
  if bs.length > size then .error .overflow
  else match bs with
    | [] => .ok 0
    | b :: bs => if b = 0 then .error .leadingZero else .ok (fromBe (b :: bs))

/-- The check at the end of `Header::decode`: the payload is there. -/
def Header.check (h : Header) (buf : Bytes) : Except Err (Header × Bytes) :=
  if buf.length < h.length then .error .inputTooShort else .ok (h, buf)

/-- The case of `Header::decode` in which the length follows. -/
def Header.decodeLong (list : Bool) (size : Nat) (buf : Bytes) : Except Err (Header × Bytes) :=
  if buf.length < size then .error .inputTooShort
  else match leftPad 8 (buf.take size) with
    | .error e => .error e
    | .ok n => if n < 56 then .error .nonCanonicalSize else Header.check ⟨list, n⟩ (buf.drop size)

/-- `Header::decode`. -/
def Header.decode : Bytes → Except Err (Header × Bytes)
  | [] => .error .inputTooShort
  | b :: buf =>
    if b.toNat < 0x80 then Header.check ⟨false, 1⟩ (b :: buf)
    else if b.toNat ≤ 0xb7 then
      if b.toNat - 0x80 = 1 then
        match buf with
        | [] => .error .inputTooShort
        | c :: _ => if c.toNat < 0x80 then .error .nonCanonicalSingleByte else Header.check ⟨false, 1⟩ buf
      else Header.check ⟨false, b.toNat - 0x80⟩ buf
    else if b.toNat ≤ 0xbf then Header.decodeLong false (b.toNat - 0xb7) buf
    else if b.toNat ≤ 0xf7 then Header.check ⟨true, b.toNat - 0xc0⟩ buf
    else Header.decodeLong true (b.toNat - 0xf7) buf

/-- `Header::decode_bytes(buf, false)`, `Bytes::decode`. -/
def decodeBytes (buf : Bytes) : Except Err (Bytes × Bytes) :=
  match Header.decode buf with
  | .error e => .error e
  | .ok (h, buf) => if h.list then .error .unexpectedList else .ok (buf.take h.length, buf.drop h.length)

/-- `Encodable for Bytes`: a byte below 128 stands for itself. -/
def encodeBytes (bs : Bytes) : Bytes :=
  match bs with
  | [b] => if b.toNat < 0x80 then [b] else Header.encode ⟨false, 1⟩ ++ [b]
  | bs => Header.encode ⟨false, bs.length⟩ ++ bs

/-- `Decodable for u8, u64` with this number of bytes. -/
def decodeInt (size : Nat) (buf : Bytes) : Except Err (Nat × Bytes) :=
  match decodeBytes buf with
  | .error e => .error e
  | .ok (bs, buf) =>
    match leftPad size bs with
    | .error e => .error e
    | .ok v => .ok (v, buf)

end Verif.Rlp
