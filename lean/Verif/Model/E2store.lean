import Verif.Model.Bytes

/-! # e2store containers (crates/e2store/src/e2store/{types,memory,stream}.rs) -/

namespace Verif.E2store

/-- Result of a function that may return an error or abort. -/
inductive Res (α : Type) where
  | ok (a : α)
  | err
  | panic
deriving DecidableEq, Repr

def Res.bind {α β : Type} : Res α → (α → Res β) → Res β
  | .ok a, f => f a
  | .err, _ => .err
  | .panic, _ => .panic

def Res.map {α β : Type} (f : α → β) (r : Res α) : Res β := r.bind fun a => .ok (f a)

/-- `Header` (types.rs:77-81). -/
structure Header where
  type : UInt16
  length : UInt32
  reserved : UInt16
deriving DecidableEq, Repr

/-- `Entry` (types.rs:8-11). -/
structure Entry where
  header : Header
  value : Bytes
deriving DecidableEq, Repr

/-- `Entry::new` (types.rs:14-23); `value.len() as u32` cuts. -/
def Entry.new (type : UInt16) (value : Bytes) : Entry := ⟨⟨type, UInt32.ofNat value.length, 0⟩, value⟩

/-- `Entry::length` (types.rs:25-27). -/
def Entry.length (e : Entry) : Nat := 8 + e.header.length.toNat

/-- `Header::write` (types.rs:87-91). -/
def Header.bytes (h : Header) : Bytes :=
  toBe 2 h.type.toNat ++ toLe 4 h.length.toNat ++ toLe 2 h.reserved.toNat

/-- `Entry::serialize` and `Entry::write` into a buffer of the entry's length (types.rs:30-56). The copy
of a value of another length than declared aborts. -/
def Entry.serialize (e : Entry) : Res Bytes :=
  if e.length > 2 ^ 32 - 1 then .err
  else if e.value.length ≠ e.header.length.toNat then .panic
  else .ok (e.header.bytes ++ e.value)

/-- `Header::deserialize` (types.rs:94-110). -/
def Header.deserialize (bs : Bytes) : Res Header :=
  if bs.length ≠ 8 then .err
  else
    let h : Header :=
      ⟨UInt16.ofNat (fromBe (bs.take 2)), UInt32.ofNat (fromLe ((bs.drop 2).take 4)),
        UInt16.ofNat (fromLe (bs.drop 6))⟩
    if h.reserved ≠ 0 then .err else .ok h

/-- `Entry::deserialize` (types.rs:59-72); the slice `bytes[0..8]` aborts if it is out of range. -/
def Entry.deserialize (bs : Bytes) : Res Entry :=
  if bs.length < 8 then .panic
  else
    (Header.deserialize (bs.take 8)).bind fun h =>
      if h.length.toNat + 8 ≠ bs.length then .err else .ok ⟨h, bs.drop 8⟩

/-- `E2StoreMemory::write` (memory.rs:26-34) into a buffer with `room` bytes left: the slice of the
buffer aborts if it is out of range. -/
def writeAll : Nat → List Entry → Res Bytes
  | _, [] => .ok []
  | room, e :: es =>
    if room < e.length then .panic
    else e.serialize.bind fun b => (writeAll (room - e.length) es).map (b ++ ·)

/-- `E2StoreMemory::length` (memory.rs:36-38). -/
def totalLength (es : List Entry) : Nat := (es.map Entry.length).sum

/-- `file.write(&mut vec![0; file.length()])` (era1.rs:113-115, e2hs.rs:220-222). -/
def writeExact (es : List Entry) : Res Bytes := writeAll (totalLength es) es

/-- `E2StoreMemory::serialize` (memory.rs:18-23): the buffer is sized with a sum of `u32`. An overflow
aborts with overflow checks; without them the buffer is too short and the write aborts. -/
def serialize (es : List Entry) : Res Bytes :=
  let room := (es.map fun e => e.length % 2 ^ 32).sum
  if room < 2 ^ 32 then writeAll room es else .panic

/-- `E2StoreMemory::deserialize` (memory.rs:41-64) on the bytes from `offset` on. `fuel` bounds the
number of rounds; each round reads at least 8 bytes, so the length of the input is enough. Fewer than 6
bytes abort at the index. A length whose sum with 8 overflows `u32` aborts (without overflow checks: at
the slice of `Entry::deserialize`, or an error if only 6 or 7 bytes are left). -/
def deserializeAux : Nat → Bytes → Res (List Entry)
  | 0, rem => if rem = [] then .ok [] else .panic
  | fuel + 1, rem =>
    if rem = [] then .ok []
    else if rem.length < 6 then .panic
    else
      let len := fromLe ((rem.drop 2).take 4) + 8
      if len ≥ 2 ^ 32 then .panic
      else if rem.length < len then .err
      else
        (Entry.deserialize (rem.take len)).bind fun e =>
          (deserializeAux fuel (rem.drop len)).map (e :: ·)

def deserialize (bs : Bytes) : Res (List Entry) := deserializeAux bs.length bs

/-- Errors of the streaming reader. -/
inductive ReadError where
  | eof
  | badHeader
deriving DecidableEq, Repr

/-- `E2StoreStreamReader::next_entry` (stream.rs:19-26), over the bytes not yet read. -/
def nextEntry (rem : Bytes) : Except ReadError (Entry × Bytes) :=
  if rem.length < 8 then .error .eof
  else
    match Header.deserialize (rem.take 8) with
    | .ok h =>
      if (rem.drop 8).length < h.length.toNat then .error .eof
      else .ok (⟨h, (rem.drop 8).take h.length.toNat⟩, (rem.drop 8).drop h.length.toNat)
    | _ => .error .badHeader

/-- `E2StoreStreamWriter::append_entry` (stream.rs:46-50), as the bytes written after it. -/
def appendEntry (written : Bytes) (e : Entry) : Res Bytes := e.serialize.map (written ++ ·)

end Verif.E2store
