import Verif.Model.Bytes

/-! # uTP content payload framing (crates/portalnet/src/utils/portal_wire.rs) -/

namespace Verif.Payload

/-- Why decoding failed. The code returns `io::Error`; the kind is kept, the message dropped. -/
inductive Err where
  /-- `UnexpectedEof` from `read_exact`, or "No content found" -/
  | eof
  /-- LEB128 value does not fit 64 bits -/
  | overflow
  /-- LEB128 value does not fit 32 bits -/
  | tooLarge
  /-- "Content payload contains more than one content item" -/
  | trailing
  /-- "Content item exceeds max allowed size of u32 bytes" (encoder) -/
  | itemTooLong
  deriving DecidableEq, Repr

/-- `leb128::write::unsigned` of the `leb128` crate (called at portal_wire.rs:66): low seven bits
first, high bit set on all but the last byte. -/
def lebWrite (v : Nat) : Bytes :=
  if v < 128 then [UInt8.ofNat v] else UInt8.ofNat (v % 128 + 128) :: lebWrite (v / 128)
termination_by v

/-- Loop of `leb128::read::unsigned` of the `leb128` crate (called at portal_wire.rs:78).
`shift` is the current bit position, `acc` the value so far. At `shift = 63` only the bytes 0 and 1
are allowed, so the 64-bit `acc` never loses bits and a natural number can stand for it. In the
overflow branch the crate reads on to the end of the varint before it returns the error; as the
caller drops the reader on an error, this is not modelled. -/
def lebReadLoop (shift acc : Nat) : Bytes → Except Err (Nat × Bytes)
  | [] => .error .eof
  | b :: rest =>
    if shift = 63 ∧ b ≠ 0 ∧ b ≠ 1 then .error .overflow
    else
      let acc' := acc ||| ((b.toNat % 128) <<< shift)
      if b.toNat < 128 then .ok (acc', rest) else lebReadLoop (shift + 7) acc' rest

/-- `read_varint` (portal_wire.rs:77-81). Returns the value and the remaining input. -/
def readVarint (bs : Bytes) : Except Err (Nat × Bytes) :=
  match lebReadLoop 0 0 bs with
  | .error e => .error e
  | .ok (v, rest) => if v < 2 ^ 32 then .ok (v, rest) else .error .tooLarge

/-- `decode_next_content_item` (portal_wire.rs:7-19). `none` means nothing left to read. -/
def decodeNext (bs : Bytes) : Except Err (Option (Bytes × Bytes)) :=
  if bs = [] then .ok none
  else
    match readVarint bs with
    | .error e => .error e
    | .ok (n, rest) =>
      if rest.length < n then .error .eof else .ok (some (rest.take n, rest.drop n))

/-- The `while let` loop of `decode_content_payload` (portal_wire.rs:27-29). Each iteration consumes
at least one byte, so `bs.length` iterations of fuel are always enough (`decode_fuel` in the
lemmas shows that the fuel is never exhausted). -/
def decodeLoop : Nat → Bytes → Except Err (List Bytes)
  | 0, bs => if bs = [] then .ok [] else .error .eof
  | fuel + 1, bs =>
    match decodeNext bs with
    | .error e => .error e
    | .ok none => .ok []
    | .ok (some (item, rest)) =>
      match decodeLoop fuel rest with
      | .error e => .error e
      | .ok items => .ok (item :: items)

/-- `decode_content_payload` (portal_wire.rs:23-32). -/
def decode (bs : Bytes) : Except Err (List Bytes) := decodeLoop bs.length bs

/-- `decode_single_content_payload` (portal_wire.rs:36-49). -/
def decodeSingle (bs : Bytes) : Except Err Bytes :=
  match decodeNext bs with
  | .error e => .error e
  | .ok none => .error .eof
  | .ok (some (item, rest)) => if rest = [] then .ok item else .error .trailing

/-- `encode_content_payload` (portal_wire.rs:56-73): the loop fails at the first item longer than
`u32::MAX`. Writing to a `BytesMut` writer always writes the whole slice. -/
def encode : List Bytes → Except Err Bytes
  | [] => .ok []
  | item :: items =>
    if item.length > 2 ^ 32 - 1 then .error .itemTooLong
    else
      match encode items with
      | .error e => .error e
      | .ok rest => .ok (lebWrite item.length ++ item ++ rest)

end Verif.Payload
