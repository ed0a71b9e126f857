import Verif.Model.E2store
import Verif.Model.Distance

/-! # Block archives (crates/e2store/src/{era1,e2hs,types,entry_types}.rs)

Compression (snappy) and the RLP/SSZ encodings of headers, bodies and receipts are arbitrary functions
`enc`, `dec`. -/

namespace Verif.Archive
open Verif.E2store

/-- Encoding followed by compression, and back. -/
structure Codec (α : Type) where
  enc : α → Bytes
  dec : Bytes → Option α

/-- entry_types.rs:14-68. -/
def compressedHeader : UInt16 := 0x0300
def compressedHeaderWithProof : UInt16 := 0x0301
def compressedBody : UInt16 := 0x0400
def compressedReceipts : UInt16 := 0x0500
def totalDifficultyType : UInt16 := 0x0600
def accumulatorType : UInt16 := 0x0700
def versionType : UInt16 := 0x6532
def blockIndexType : UInt16 := 0x6632

/-- `TryFrom<&Entry>` of `HeaderEntry` (types.rs:13-31), `BodyEntry`, `ReceiptsEntry` (era1.rs:175-193,
213-231) and `HeaderWithProofEntry` (e2hs.rs:280-300). -/
def fromEntry {α : Type} (type : UInt16) (c : Codec α) (e : Entry) : Res α :=
  if e.header.type ≠ type then .err
  else if e.header.reserved ≠ 0 then .err
  else
    match c.dec e.value with
    | none => .err
    | some x => .ok x

/-- The inverse (types.rs:33-44, era1.rs:195-206, 233-244, e2hs.rs:302-316). Writing to memory does not
fail. -/
def toEntry {α : Type} (type : UInt16) (c : Codec α) (x : α) : Entry := Entry.new type (c.enc x)

/-- `VersionEntry::default` (e2store/types.rs:118-124). -/
def versionEntry : Entry := Entry.new versionType []

/-- `VersionEntry::try_from` (e2store/types.rs:126-150). -/
def readVersion (e : Entry) : Res Entry :=
  if e.header.type ≠ versionType then .err
  else if e.header.length ≠ 0 then .err
  else if e.header.reserved ≠ 0 then .err
  else if e.value ≠ [] then .err
  else .ok e

/-- 32 big-endian bytes: `TotalDifficultyEntry` (era1.rs:251-281) and `AccumulatorEntry` (288-318). -/
def readWord (type : UInt16) (e : Entry) : Res (BitVec 256) :=
  if e.header.type ≠ type then .err
  else if e.header.length ≠ 32 then .err
  else if e.header.reserved ≠ 0 then .err
  else if e.value.length ≠ 32 then .err
  else .ok (BitVec.ofNat 256 (fromBe e.value))

def writeWord (type : UInt16) (x : BitVec 256) : Entry := Entry.new type (Id.bytes x)

/-- `BlockIndex` (era1.rs:370-374). -/
structure BlockIndex where
  startingNumber : UInt64
  indices : List UInt64
  count : UInt64
deriving DecidableEq, Repr

/-- era1.rs:355-367, e2hs.rs:360-372. -/
def BlockIndex.toEntry (b : BlockIndex) : Entry :=
  Entry.new blockIndexType
    ((b.startingNumber :: b.indices ++ [b.count]).flatMap fun i => toLe 8 i.toNat)

/-- The `u64` at a byte position. -/
def u64At (v : Bytes) (pos : Nat) : UInt64 := UInt64.ofNat (fromLe ((v.drop pos).take 8))

/-- `BlockIndex::try_from` (era1.rs:376-395). The callers check the length of the value first. -/
def BlockIndex.ofValue (v : Bytes) : BlockIndex :=
  let n := (v.length - 16) / 8
  { startingNumber := u64At v 0
    indices := (List.range n).map fun i => u64At v (i * 8 + 8)
    count := u64At v (n * 8 + 8) }

/-- `Era1BlockIndexEntry::try_from` (era1.rs:327-353) with `lengths = [65552, 42912]`,
`E2HSBlockIndexEntry::try_from` (e2hs.rs:331-358) with `lengths = [65552]`. -/
def readIndex (lengths : List Nat) (e : Entry) : Res BlockIndex :=
  if e.header.type ≠ blockIndexType then .err
  else if e.header.length.toNat ∉ lengths then .err
  else if e.header.reserved ≠ 0 then .err
  else if e.value.length ∉ lengths then .err
  else .ok (BlockIndex.ofValue e.value)

/-- How the records of one block are stored: `BlockTuple` of era1.rs:128-168 and e2hs.rs:235-273. -/
structure TupleFormat (T : Type) where
  width : Nat
  write : T → List Entry
  /-- of a slice of `width` entries -/
  read : List Entry → Res T

/-- `for count in 0..n { BlockTuple::try_from(&entries[count*w+1 .. count*w+1+w])? }` (era1.rs:81-84,
e2hs.rs:190-193): an index out of range aborts. `entries` is what follows the entries read so far. -/
def readTuples {T : Type} (f : TupleFormat T) : Nat → List Entry → Res (List T)
  | 0, _ => .ok []
  | n + 1, entries =>
    if entries.length < f.width then .panic
    else
      (f.read (entries.take f.width)).bind fun t =>
        (readTuples f n (entries.drop f.width)).map (t :: ·)

/-! ## era1 -/

structure Era1Codecs (H B R : Type) where
  header : Codec H
  body : Codec B
  receipts : Codec R

/-- era1.rs:128-134. -/
structure Era1Tuple (H B R : Type) where
  header : H
  body : B
  receipts : R
  totalDifficulty : BitVec 256

/-- era1.rs:136-168. -/
def era1Format {H B R : Type} (c : Era1Codecs H B R) : TupleFormat (Era1Tuple H B R) where
  width := 4
  write t := [toEntry compressedHeader c.header t.header, toEntry compressedBody c.body t.body,
    toEntry compressedReceipts c.receipts t.receipts, writeWord totalDifficultyType t.totalDifficulty]
  read es :=
    match es with
    | [e₀, e₁, e₂, e₃] =>
      (fromEntry compressedHeader c.header e₀).bind fun h =>
      (fromEntry compressedBody c.body e₁).bind fun b =>
      (fromEntry compressedReceipts c.receipts e₂).bind fun r =>
      (readWord totalDifficultyType e₃).bind fun d => .ok ⟨h, b, r, d⟩
    | _ => .err

/-- `Era1` (era1.rs:38-43). -/
structure Era1 (T : Type) where
  version : Entry
  tuples : List T
  accumulator : BitVec 256
  index : BlockIndex

/-- era1.rs:36, 73. -/
def era1EntryCounts : List Nat := [8192 * 4 + 3, 21451]

/-- `Era1::write` (era1.rs:95-117). -/
def Era1.write {T : Type} (f : TupleFormat T) (e : Era1 T) : Res Bytes :=
  let entries := e.version :: e.tuples.flatMap f.write ++
    [writeWord accumulatorType e.accumulator, e.index.toEntry]
  if entries.length ∉ era1EntryCounts then .err else writeExact entries

/-- `Era1::deserialize` (era1.rs:69-93). -/
def Era1.deserialize {T : Type} (f : TupleFormat T) (bs : Bytes) : Res (Era1 T) :=
  (E2store.deserialize bs).bind fun entries =>
    if entries.length ∉ era1EntryCounts then .err
    else
      match entries, entries.getLast? with
      | first :: rest, some last =>
        (readVersion first).bind fun version =>
        (readIndex [65552, 42912] last).bind fun index =>
        (readTuples f index.count.toNat rest).bind fun tuples =>
          match entries[index.count.toNat * 4 + 1]? with
          | none => .panic
          | some a => (readWord accumulatorType a).bind fun acc => .ok ⟨version, tuples, acc, index⟩
      | _, _ => .panic

/-- `Era1::iter_tuples` (era1.rs:54-67), run to the end: errors of the index and of tuples abort. -/
def Era1.iterTuples {T : Type} (f : TupleFormat T) (bs : Bytes) : Res (List T) :=
  (E2store.deserialize bs).bind fun entries =>
    match entries.getLast? with
    | none => .err
    | some last =>
      match readIndex [65552, 42912] last with
      | .ok index =>
        match readTuples f index.count.toNat (entries.drop 1) with
        | .ok ts => .ok ts
        | _ => .panic
      | _ => .panic

/-! ## e2hs -/

structure E2hsCodecs (H B R : Type) where
  headerWithProof : Codec H
  body : Codec B
  receipts : Codec R

/-- e2hs.rs:235-240. -/
structure E2hsTuple (H B R : Type) where
  headerWithProof : H
  body : B
  receipts : R

/-- e2hs.rs:242-273. -/
def e2hsFormat {H B R : Type} (c : E2hsCodecs H B R) : TupleFormat (E2hsTuple H B R) where
  width := 3
  write t := [toEntry compressedHeaderWithProof c.headerWithProof t.headerWithProof,
    toEntry compressedBody c.body t.body, toEntry compressedReceipts c.receipts t.receipts]
  read es :=
    match es with
    | [e₀, e₁, e₂] =>
      (fromEntry compressedHeaderWithProof c.headerWithProof e₀).bind fun h =>
      (fromEntry compressedBody c.body e₁).bind fun b =>
      (fromEntry compressedReceipts c.receipts e₂).bind fun r => .ok ⟨h, b, r⟩
    | _ => .err

/-- `E2HSMemory` (e2hs.rs:146-150). -/
structure E2hs (T : Type) where
  version : Entry
  tuples : List T
  index : BlockIndex

def blocksPerE2hs : Nat := 8192
def e2hsEntryCount : Nat := 8192 * 3 + 2

/-- `E2HSMemory::write` (e2hs.rs:201-224). -/
def E2hs.write {T : Type} (f : TupleFormat T) (e : E2hs T) : Res Bytes :=
  let entries := e.version :: e.tuples.flatMap f.write ++ [e.index.toEntry]
  if entries.length ≠ e2hsEntryCount then .err else writeExact entries

/-- `E2HSMemory::deserialize` (e2hs.rs:173-199). -/
def E2hs.deserialize {T : Type} (f : TupleFormat T) (bs : Bytes) : Res (E2hs T) :=
  (E2store.deserialize bs).bind fun entries =>
    if entries.length ≠ e2hsEntryCount then .err
    else
      match entries, entries.getLast? with
      | first :: rest, some last =>
        (readVersion first).bind fun version =>
        (readIndex [65552] last).bind fun index =>
        (readTuples f index.count.toNat rest).bind fun tuples => .ok ⟨version, tuples, index⟩
      | _, _ => .panic

/-- `E2HSMemory::iter_tuples` (e2hs.rs:161-171), run to the end: errors of tuples abort. -/
def E2hs.iterTuples {T : Type} (f : TupleFormat T) (bs : Bytes) : Res (List T) :=
  (E2store.deserialize bs).bind fun entries =>
    match entries.getLast? with
    | none => .err
    | some last =>
      (readIndex [65552] last).bind fun index =>
        match readTuples f index.count.toNat (entries.drop 1) with
        | .ok ts => .ok ts
        | _ => .panic

/-- `E2HSMemory::index` (e2hs.rs:226-232). -/
def E2hs.epoch {T : Type} (e : E2hs T) : Nat := e.index.startingNumber.toNat / 8192

/-- `E2HSWriter` (e2hs.rs:51-59), with the bytes written to the file. -/
structure Writer where
  written : Bytes
  epoch : UInt64
  offset : Nat
  indices : List UInt64
  lastHash : Option Id
deriving DecidableEq, Repr

/-- `E2HSWriter::create` (e2hs.rs:62-89); file system errors are left out. -/
def Writer.create (epoch : UInt64) : Res Writer :=
  (appendEntry [] versionEntry).map fun w => ⟨w, epoch, versionEntry.length, [], none⟩

/-- e2hs.rs:98-101. -/
def appendEntries : Bytes → Nat → List Entry → Res (Bytes × Nat)
  | w, off, [] => .ok (w, off)
  | w, off, e :: es => (appendEntry w e).bind fun w => appendEntries w (off + e.length) es

/-- `E2HSWriter::append_block_tuple` (e2hs.rs:95-114). The offset is a `u64`; files do not get that
long, so it is kept as a natural number. After an error the writer is not used further. -/
def Writer.append {T : Type} (f : TupleFormat T) (hash : T → Id) (w : Writer) (t : T) : Res Writer :=
  let indices := w.indices ++ [UInt64.ofNat w.offset]
  (appendEntries w.written w.offset (f.write t)).map fun r =>
    { w with
      written := r.1
      offset := r.2
      indices := indices
      lastHash := if indices.length = blocksPerE2hs then some (hash t) else w.lastHash }

/-- `E2HSWriter::finish` (e2hs.rs:116-143): the bytes of the file, and the epoch and the first 4 bytes
of the hash that make its name. The product is a `u64`; an overflow aborts (with overflow checks). -/
def Writer.finish (w : Writer) : Res (Bytes × UInt64 × Bytes) :=
  if w.indices.length ≠ blocksPerE2hs then .err
  else if w.epoch.toNat * 8192 ≥ 2 ^ 64 then .panic
  else
    (appendEntry w.written
      (BlockIndex.toEntry ⟨UInt64.ofNat (w.epoch.toNat * 8192), w.indices, 8192⟩)).bind fun bytes =>
      match w.lastHash with
      | none => .err
      | some h => .ok (bytes, w.epoch, h.bytes.take 4)

/-- Appending tuples one after the other. -/
def Writer.appendAll {T : Type} (f : TupleFormat T) (hash : T → Id) : Writer → List T → Res Writer
  | w, [] => .ok w
  | w, t :: ts => (w.append f hash t).bind fun w => w.appendAll f hash ts

end Verif.Archive
