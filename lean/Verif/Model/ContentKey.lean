import Verif.Model.Ssz
import Verif.Model.Nibbles
import Verif.Model.ContentId

/-! # Content keys (crates/ethportal-api/src/types/content_key/) -/

namespace Verif.ContentKey
open Verif.Ssz

/-- SSZ codec of a field type. -/
structure Codec (α : Type) where
  field : Field
  enc : α → Bytes
  dec : Bytes → Option α

/-- `[u8; 32]` / `B256`. The value is kept as a number, most significant byte first. -/
def hash : Codec Id where
  field := .fixed 32
  enc := Id.bytes
  dec b := if b.length = 32 then some (BitVec.ofNat 256 (fromBe b)) else none

/-- `u64`. -/
def u64 : Codec UInt64 where
  field := .fixed 8
  enc n := toLe 8 n.toNat
  dec b := (decodeUint 8 b).map UInt64.ofNat

/-- `u8`. -/
def u8 : Codec UInt8 where
  field := .fixed 1
  enc n := [n]
  dec b := (decodeUint 1 b).map UInt8.ofNat

/-- `Nibbles` (state_trie/nibbles.rs:43-109). -/
def path : Codec Bytes where
  field := .var
  enc := Nibbles.encode
  dec := Nibbles.decode

/-! derived `Encode`/`Decode` of structures with one, two and three fields -/

def enc1 {α} (a : Codec α) (x : α) : Bytes := encodeContainer [a.field] [a.enc x]
def dec1 {α} (a : Codec α) (bs : Bytes) : Option α := do
  match ← decodeContainer [a.field] bs with
  | [x] => a.dec x
  | _ => none

def enc2 {α β} (a : Codec α) (b : Codec β) (x : α) (y : β) : Bytes :=
  encodeContainer [a.field, b.field] [a.enc x, b.enc y]
def dec2 {α β} (a : Codec α) (b : Codec β) (bs : Bytes) : Option (α × β) := do
  match ← decodeContainer [a.field, b.field] bs with
  | [x, y] =>
    let x ← a.dec x
    let y ← b.dec y
    some (x, y)
  | _ => none

def enc3 {α β γ} (a : Codec α) (b : Codec β) (c : Codec γ) (x : α) (y : β) (z : γ) : Bytes :=
  encodeContainer [a.field, b.field, c.field] [a.enc x, b.enc y, c.enc z]
def dec3 {α β γ} (a : Codec α) (b : Codec β) (c : Codec γ) (bs : Bytes) : Option (α × β × γ) := do
  match ← decodeContainer [a.field, b.field, c.field] bs with
  | [x, y, z] =>
    let x ← a.dec x
    let y ← b.dec y
    let z ← c.dec z
    some (x, y, z)
  | _ => none

/-- `HistoryContentKey` (history.rs:18-38). -/
inductive History where
  | blockBody (number : UInt64)
  | blockReceipts (number : UInt64)
deriving DecidableEq, Repr

/-- history.rs:66-83. -/
def History.toBytes : History → Bytes
  | .blockBody n => 0x00 :: enc1 u64 n
  | .blockReceipts n => 0x01 :: enc1 u64 n

/-- history.rs:85-105; `none` is a `ContentKeyError`. -/
def History.ofBytes : Bytes → Option History
  | [] => none
  | sel :: key =>
    if sel = 0x00 then (dec1 u64 key).map .blockBody
    else if sel = 0x01 then (dec1 u64 key).map .blockReceipts
    else none

/-- history.rs:51-60. -/
def History.contentId : History → Id
  | .blockBody n => rangeContentId n.toBitVec 0x00
  | .blockReceipts n => rangeContentId n.toBitVec 0x01

/-- `LegacyHistoryContentKey` (legacy_history.rs:26-46). -/
inductive Legacy where
  | headerByHash (h : Id)
  | headerByNumber (n : UInt64)
  | blockBody (h : Id)
  | blockReceipts (h : Id)
  | ephemeralFind (h : Id) (ancestors : UInt8)
  | ephemeralOffer (h : Id)
deriving DecidableEq, Repr

/-- legacy_history.rs:230-267. -/
def Legacy.toBytes : Legacy → Bytes
  | .headerByHash h => 0x00 :: enc1 hash h
  | .blockBody h => 0x01 :: enc1 hash h
  | .blockReceipts h => 0x02 :: enc1 hash h
  | .headerByNumber n => 0x03 :: enc1 u64 n
  | .ephemeralFind h a => 0x04 :: enc2 hash u8 h a
  | .ephemeralOffer h => 0x05 :: enc1 hash h

/-- legacy_history.rs:269-307. -/
def Legacy.ofBytes : Bytes → Option Legacy
  | [] => none
  | sel :: key =>
    if sel = 0x00 then (dec1 hash key).map .headerByHash
    else if sel = 0x01 then (dec1 hash key).map .blockBody
    else if sel = 0x02 then (dec1 hash key).map .blockReceipts
    else if sel = 0x03 then (dec1 u64 key).map .headerByNumber
    else if sel = 0x04 then (dec2 hash u8 key).map fun x => .ephemeralFind x.1 x.2
    else if sel = 0x05 then (dec1 hash key).map .ephemeralOffer
    else none

/-- legacy_history.rs:219-228. -/
def Legacy.affectedByRadius : Legacy → Bool
  | .headerByHash _ => true
  | .headerByNumber _ => true
  | .blockBody _ => true
  | .blockReceipts _ => true
  | .ephemeralFind _ _ => false
  | .ephemeralOffer _ => false

/-- `BeaconContentKey` (beacon.rs:24-30, 39-85). -/
inductive Beacon where
  | bootstrap (h : Id)
  | updatesByRange (start count : UInt64)
  | finalityUpdate (slot : UInt64)
  | optimisticUpdate (slot : UInt64)
  | historicalSummaries (epoch : UInt64)
deriving DecidableEq, Repr

/-- beacon.rs:120-152. -/
def Beacon.toBytes : Beacon → Bytes
  | .bootstrap h => 0x10 :: enc1 hash h
  | .updatesByRange s c => 0x11 :: enc2 u64 u64 s c
  | .finalityUpdate s => 0x12 :: enc1 u64 s
  | .optimisticUpdate s => 0x13 :: enc1 u64 s
  | .historicalSummaries e => 0x14 :: enc1 u64 e

/-- beacon.rs:154-191. -/
def Beacon.ofBytes : Bytes → Option Beacon
  | [] => none
  | sel :: key =>
    if sel = 0x10 then (dec1 hash key).map .bootstrap
    else if sel = 0x11 then (dec2 u64 u64 key).map fun x => .updatesByRange x.1 x.2
    else if sel = 0x12 then (dec1 u64 key).map .finalityUpdate
    else if sel = 0x13 then (dec1 u64 key).map .optimisticUpdate
    else if sel = 0x14 then (dec1 u64 key).map .historicalSummaries
    else none

/-- `StateContentKey` (state.rs:23-65). -/
inductive State where
  | accountTrieNode (path : Bytes) (nodeHash : Id)
  | storageTrieNode (addressHash : Id) (path : Bytes) (nodeHash : Id)
  | bytecode (addressHash codeHash : Id)
deriving DecidableEq, Repr

/-- state.rs:72-94. -/
def State.toBytes : State → Bytes
  | .accountTrieNode p h => 0x20 :: enc2 path hash p h
  | .storageTrieNode a p h => 0x21 :: enc3 hash path hash a p h
  | .bytecode a c => 0x22 :: enc2 hash hash a c

/-- state.rs:96-122. -/
def State.ofBytes : Bytes → Option State
  | [] => none
  | sel :: key =>
    if sel = 0x20 then (dec2 path hash key).map fun x => .accountTrieNode x.1 x.2
    else if sel = 0x21 then (dec3 hash path hash key).map fun x => .storageTrieNode x.1 x.2.1 x.2.2
    else if sel = 0x22 then (dec2 hash hash key).map fun x => .bytecode x.1 x.2
    else none

/-- `OverlayContentKey::content_id` (overlay.rs:20-22): the default, with the hash function as a
parameter. -/
def contentId (sha256 : Bytes → Id) (bytes : Bytes) : Id := sha256 bytes

end Verif.ContentKey
