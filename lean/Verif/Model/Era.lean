import Verif.Model.Archive

/-! # Era files (crates/e2store/src/era.rs)

Compression and SSZ of beacon blocks and states are arbitrary functions; reading depends on the fork. -/

namespace Verif.Era
open Verif.E2store Verif.Archive

/-- `ForkName` (ethportal-api consensus/fork.rs), as far as it occurs here. -/
inductive Fork where
  | bellatrix | capella | deneb | electra
deriving DecidableEq, Repr

/-- `get_beacon_fork` (era.rs:392-404). -/
def beaconFork (slot : UInt64) : Res Fork :=
  if slot < 4636672 then .panic
  else if slot < 6209536 then .ok .bellatrix
  else if slot < 8626176 then .ok .capella
  else if slot < 11649024 then .ok .deneb
  else .ok .electra

/-- entry_types.rs:4, 9, 74. -/
def compressedBlock : UInt16 := 0x0100
def compressedState : UInt16 := 0x0200
def slotIndexType : UInt16 := 0x6932

/-- SSZ and compression of the values of one kind. -/
structure ForkCodec (α : Type) where
  enc : α → Bytes
  dec : Fork → Bytes → Option α

/-- `CompressedSignedBeaconBlock::try_from` and `CompressedBeaconState::try_from` (era.rs:161-175, 204-218): the reserved
bytes are not looked at. -/
def fromForkEntry {α : Type} (type : UInt16) (c : ForkCodec α) (e : Entry) (fork : Fork) : Res α :=
  if e.header.type ≠ type then .err
  else
    match c.dec fork e.value with
    | none => .err
    | some x => .ok x

/-- Back (era.rs:178-194, 221-237). -/
def toForkEntry {α : Type} (type : UInt16) (c : ForkCodec α) (x : α) : Entry := Entry.new type (c.enc x)

/-- `From<&SlotIndexBlockEntry>` and `From<&SlotIndexStateEntry> for Entry` (era.rs:280-292, 362-374). The fields are those
of `BlockIndex`: starting slot, offsets, count. The offsets are `i64`, here their bits. -/
def slotIndexEntry (b : BlockIndex) : Entry :=
  Entry.new slotIndexType ((b.startingNumber :: b.indices ++ [b.count]).flatMap fun i => toLe 8 i.toNat)

/-- `TryFrom<&Entry>` of both (era.rs:252-278, 334-360) and of the indices (306-325, 381-395), with `len` 65552 or 24. -/
def readSlotIndex (len : Nat) (e : Entry) : Res BlockIndex :=
  if e.header.type ≠ slotIndexType then .err
  else if e.header.length.toNat ≠ len then .err
  else if e.header.reserved ≠ 0 then .err
  else if e.value.length ≠ len then .err
  else .ok (BlockIndex.ofValue e.value)

/-- `Era` (era.rs:27-33). -/
structure Era (B S : Type) where
  version : Entry
  blocks : List B
  state : S
  blockIndex : BlockIndex
  stateIndex : BlockIndex

/-- The loop of `get_block_slot_indexes` (era.rs:104-116) from position `i` on; `slot + i` aborts on overflow (with
overflow checks). -/
def offsetSlots (marker start : UInt64) : Nat → List UInt64 → Res (List UInt64)
  | _, [] => .ok []
  | i, off :: rest =>
    if off = marker then offsetSlots marker start (i + 1) rest
    else if start.toNat + i ≥ 2 ^ 64 then .panic
    else (offsetSlots marker start (i + 1) rest).map (UInt64.ofNat (start.toNat + i) :: ·)

/-- `get_block_slot_indexes` (era.rs:94-117): an offset back to the beginning of the file marks a slot without a block. -/
def blockSlots (fileLength : Nat) (b : BlockIndex) : Res (List UInt64) :=
  if fileLength < 65560 + 32 then .panic
  else offsetSlots (0 - UInt64.ofNat (fileLength - 65560 - 32)) b.startingNumber 0 b.indices

/-- The loop over the slots (era.rs:67-72); `entries` is what follows the version. -/
def readBlocks {B : Type} (c : ForkCodec B) : List UInt64 → List Entry → Res (List B)
  | [], _ => .ok []
  | _ :: _, [] => .panic
  | slot :: slots, e :: entries =>
    (beaconFork slot).bind fun fork =>
    (fromForkEntry compressedBlock c e fork).bind fun b =>
      (readBlocks c slots entries).map (b :: ·)

/-- `entries[entries_length - k]` (era.rs:53, 54, 74): aborts for fewer entries. -/
def fromEnd (entries : List Entry) (k : Nat) : Res Entry :=
  if entries.length < k then .panic
  else
    match entries[entries.length - k]? with
    | none => .panic
    | some e => .ok e

/-- `Era::deserialize` (era.rs:46-83). -/
def deserialize {B S : Type} (cb : ForkCodec B) (cs : ForkCodec S) (bs : Bytes) : Res (Era B S) :=
  (E2store.deserialize bs).bind fun entries =>
    match entries with
    | [] => .panic
    | first :: rest =>
      (readVersion first).bind fun version =>
      (fromEnd entries 2).bind fun e2 =>
      (readSlotIndex 65552 e2).bind fun blockIndex =>
      (fromEnd entries 1).bind fun e1 =>
      (readSlotIndex 24 e1).bind fun stateIndex =>
      (blockSlots bs.length blockIndex).bind fun slots =>
        if entries.length < 4 then .panic
        else if slots.length ≠ entries.length - 4 then .err
        else
          (readBlocks cb slots rest).bind fun blocks =>
          (beaconFork stateIndex.startingNumber).bind fun fork =>
          (fromEnd entries 3).bind fun e3 =>
          (fromForkEntry compressedState cs e3 fork).bind fun state =>
            .ok ⟨version, blocks, state, blockIndex, stateIndex⟩

/-- `Era::deserialize_to_beacon_state` (era.rs:86-94). -/
def deserializeState {S : Type} (cs : ForkCodec S) (bs : Bytes) : Res S :=
  (E2store.deserialize bs).bind fun entries =>
    (fromEnd entries 1).bind fun e1 =>
    (readSlotIndex 24 e1).bind fun stateIndex =>
    (beaconFork stateIndex.startingNumber).bind fun fork =>
    (fromEnd entries 3).bind fun e3 =>
      fromForkEntry compressedState cs e3 fork

/-- `Era::write` (era.rs:119-138). -/
def Era.write {B S : Type} (cb : ForkCodec B) (cs : ForkCodec S) (e : Era B S) : Res Bytes :=
  writeExact (e.version :: e.blocks.map (toForkEntry compressedBlock cb) ++
    [toForkEntry compressedState cs e.state, slotIndexEntry e.blockIndex, slotIndexEntry e.stateIndex])

/-- `Era::contains` (era.rs:140-150). -/
def Era.contains {B S : Type} (number : B → Nat) (e : Era B S) (n : Nat) : Bool :=
  match e.blocks.head?, e.blocks.getLast? with
  | some a, some b => decide (number a ≤ n ∧ n ≤ number b)
  | _, _ => false

/-- `Era::epoch_index` (era.rs:152-154). -/
def Era.epochIndex {B S : Type} (e : Era B S) : Nat := e.stateIndex.startingNumber.toNat / 8192

/-- The bytes from `a` to `b`, both included, of a file: the answer to a request with a `Range`. -/
def rangeOf (bs : Bytes) (a b : Nat) : Bytes := (bs.take (b + 1)).drop a

/-- `download_first_beacon_block_from_era` and `start_slot_index` (era_binary_search.rs:98-133), with the bytes of the file
in place of the server; a file of fewer bytes is answered with what there is. `15 + length` and `era_index - 1` abort on
overflow. -/
def firstBlock {B : Type} (cb : ForkCodec B) (era : UInt64) (bs : Bytes) : Res B :=
  (Header.deserialize (rangeOf bs 8 15)).bind fun h =>
    if 15 + h.length.toNat ≥ 2 ^ 32 then .panic
    else
      (Entry.deserialize (rangeOf bs 8 (15 + h.length.toNat))).bind fun e =>
        if era = 0 ∨ (era.toNat - 1) * 8192 ≥ 2 ^ 64 then .panic
        else
          (beaconFork (UInt64.ofNat ((era.toNat - 1) * 8192))).bind fun fork =>
            fromForkEntry compressedBlock cb e fork

end Verif.Era
