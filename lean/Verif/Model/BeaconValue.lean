import Verif.Model.SszTypes
import Verif.Model.LightClient

/-! # Beacon content values (crates/ethportal-api/src/types/content_value/beacon.rs)

with the light client types they carry (types/consensus/light_client/*.rs, fork.rs, header.rs,
execution_payload.rs, sync_committee.rs, body.rs, historical_summaries.rs). -/

namespace Verif.BeaconValue
open Verif.Ssz Verif.SszT Verif.ContentKey
open Verif.LightClient (Header)

/-- `ForkName` (consensus/fork.rs:20-25). -/
inductive Fork where
  | bellatrix | capella | deneb | electra
deriving DecidableEq, Repr

/-- `as_fork_digest` (fork.rs:42-49). -/
def Fork.digest : Fork → Bytes
  | .bellatrix => [0x4a, 0x26, 0xc5, 0x8b]
  | .capella => [0xbb, 0xa4, 0xda, 0x96]
  | .deneb => [0x6a, 0x95, 0xa1, 0xa9]
  | .electra => [0xad, 0x53, 0x2c, 0xeb]

/-- `ForkName::try_from(ForkDigest)` (fork.rs:27-39). -/
def Fork.ofDigest (d : Bytes) : Option Fork :=
  if d = [0x4a, 0x26, 0xc5, 0x8b] then some .bellatrix
  else if d = [0xbb, 0xa4, 0xda, 0x96] then some .capella
  else if d = [0x6a, 0x95, 0xa1, 0xa9] then some .deneb
  else if d = [0xad, 0x53, 0x2c, 0xeb] then some .electra
  else none

/-- `BeaconBlockHeader` (consensus/header.rs:9-20). -/
def headerCodec : Codec Header :=
  container (.cons u64 <| .cons u64 <| .cons hash <| .cons hash <| .cons hash .nil)
    (fun (a, b, c, d, e, _) => ⟨a, b, c, d, e⟩)
    (fun h => (h.slot, h.proposerIndex, h.parentRoot, h.stateRoot, h.bodyRoot, ()))

/-- `ExecutionPayloadHeaderCapella` (execution_payload.rs:230-272). -/
structure ExecCapella where
  parentHash : Id
  feeRecipient : BytesN 20
  stateRoot : Id
  receiptsRoot : Id
  logsBloom : BytesN 256
  prevRandao : Id
  blockNumber : UInt64
  gasLimit : UInt64
  gasUsed : UInt64
  timestamp : UInt64
  extraData : BList UInt8 32
  baseFeePerGas : BitVec 256
  blockHash : Id
  transactionsRoot : Id
  withdrawalsRoot : Id
deriving DecidableEq

/-- `ExecutionPayloadHeaderDeneb` and `ExecutionPayloadHeaderElectra`, which have the same fields
(execution_payload.rs:230-272). -/
structure ExecDeneb where
  parentHash : Id
  feeRecipient : BytesN 20
  stateRoot : Id
  receiptsRoot : Id
  logsBloom : BytesN 256
  prevRandao : Id
  blockNumber : UInt64
  gasLimit : UInt64
  gasUsed : UInt64
  timestamp : UInt64
  extraData : BList UInt8 32
  baseFeePerGas : BitVec 256
  blockHash : Id
  transactionsRoot : Id
  withdrawalsRoot : Id
  blobGasUsed : UInt64
  excessBlobGas : UInt64
deriving DecidableEq

def execCapellaCodec : Codec ExecCapella :=
  container
    (.cons hash <| .cons (bytesN 20) <| .cons hash <| .cons hash <| .cons (bytesN 256) <| .cons hash <|
      .cons u64 <| .cons u64 <| .cons u64 <| .cons u64 <| .cons (byteList 32) <| .cons u256 <|
      .cons hash <| .cons hash <| .cons hash .nil)
    (fun (a, b, c, d, e, f, g, h, i, j, k, l, m, n, o, _) => ⟨a, b, c, d, e, f, g, h, i, j, k, l, m, n, o⟩)
    (fun x => (x.parentHash, x.feeRecipient, x.stateRoot, x.receiptsRoot, x.logsBloom, x.prevRandao,
      x.blockNumber, x.gasLimit, x.gasUsed, x.timestamp, x.extraData, x.baseFeePerGas, x.blockHash,
      x.transactionsRoot, x.withdrawalsRoot, ()))

def execDenebCodec : Codec ExecDeneb :=
  container
    (.cons hash <| .cons (bytesN 20) <| .cons hash <| .cons hash <| .cons (bytesN 256) <| .cons hash <|
      .cons u64 <| .cons u64 <| .cons u64 <| .cons u64 <| .cons (byteList 32) <| .cons u256 <|
      .cons hash <| .cons hash <| .cons hash <| .cons u64 <| .cons u64 .nil)
    (fun (a, b, c, d, e, f, g, h, i, j, k, l, m, n, o, p, q, _) =>
      ⟨a, b, c, d, e, f, g, h, i, j, k, l, m, n, o, p, q⟩)
    (fun x => (x.parentHash, x.feeRecipient, x.stateRoot, x.receiptsRoot, x.logsBloom, x.prevRandao,
      x.blockNumber, x.gasLimit, x.gasUsed, x.timestamp, x.extraData, x.baseFeePerGas, x.blockHash,
      x.transactionsRoot, x.withdrawalsRoot, x.blobGasUsed, x.excessBlobGas, ()))

/-- What a light client header has besides the beacon header: nothing in Bellatrix, later the execution
header and its branch of 4 hashes (light_client/header.rs:16-47). -/
def ExecPart : Fork → Type
  | .bellatrix => Unit
  | .capella => ExecCapella × Vec Id 4
  | .deneb => ExecDeneb × Vec Id 4
  | .electra => ExecDeneb × Vec Id 4

instance : ∀ f, DecidableEq (ExecPart f)
  | .bellatrix => inferInstanceAs (DecidableEq Unit)
  | .capella => inferInstanceAs (DecidableEq (ExecCapella × Vec Id 4))
  | .deneb => inferInstanceAs (DecidableEq (ExecDeneb × Vec Id 4))
  | .electra => inferInstanceAs (DecidableEq (ExecDeneb × Vec Id 4))

/-- `LightClientHeader` of a fork (light_client/header.rs:38-48). -/
structure LcHeader (f : Fork) where
  beacon : Header
  exec : ExecPart f
deriving DecidableEq

def lcHeaderCodec : (f : Fork) → Codec (LcHeader f)
  | .bellatrix => container (.cons headerCodec .nil) (fun (b, _) => ⟨b, ()⟩) (fun x => (x.beacon, ()))
  | .capella =>
    container (.cons headerCodec <| .cons execCapellaCodec <| .cons (vector hash 4) .nil)
      (fun (b, e, v, _) => ⟨b, (e, v)⟩) (fun x => (x.beacon, x.exec.1, x.exec.2, ()))
  | .deneb =>
    container (.cons headerCodec <| .cons execDenebCodec <| .cons (vector hash 4) .nil)
      (fun (b, e, v, _) => ⟨b, (e, v)⟩) (fun x => (x.beacon, x.exec.1, x.exec.2, ()))
  | .electra =>
    container (.cons headerCodec <| .cons execDenebCodec <| .cons (vector hash 4) .nil)
      (fun (b, e, v, _) => ⟨b, (e, v)⟩) (fun x => (x.beacon, x.exec.1, x.exec.2, ()))

/-- `SyncCommittee` (sync_committee.rs:11-15): 512 keys of 48 bytes and their aggregate. -/
structure SyncCommittee where
  pubkeys : Vec (BytesN 48) 512
  aggregatePubkey : BytesN 48
deriving DecidableEq

def syncCommitteeCodec : Codec SyncCommittee :=
  container (.cons (vector (bytesN 48) 512) <| .cons (bytesN 48) .nil)
    (fun (a, b, _) => ⟨a, b⟩) (fun x => (x.pubkeys, x.aggregatePubkey, ()))

/-- `SyncAggregate` (body.rs:193-197): 512 bits in 64 bytes, signature of 96 bytes. -/
structure SyncAggregate where
  bits : BytesN 64
  signature : BytesN 96
deriving DecidableEq

def syncAggregateCodec : Codec SyncAggregate :=
  container (.cons (bytesN 64) <| .cons (bytesN 96) .nil)
    (fun (a, b, _) => ⟨a, b⟩) (fun x => (x.bits, x.signature, ()))

/-- Lengths of the branches (bootstrap.rs:22-23, update.rs:24-28, finality_update.rs:25). -/
def committeeBranchLen : Fork → Nat
  | .electra => 6
  | _ => 5
def finalityBranchLen : Fork → Nat
  | .electra => 7
  | _ => 6

/-- `LightClientBootstrap` (bootstrap.rs:46-68). -/
structure Bootstrap (f : Fork) where
  header : LcHeader f
  currentSyncCommittee : SyncCommittee
  branch : Vec Id (committeeBranchLen f)
deriving DecidableEq

def bootstrapCodec (f : Fork) : Codec (Bootstrap f) :=
  container (.cons (lcHeaderCodec f) <| .cons syncCommitteeCodec <|
      .cons (vector hash (committeeBranchLen f)) .nil)
    (fun (a, b, c, _) => ⟨a, b, c⟩) (fun x => (x.header, x.currentSyncCommittee, x.branch, ()))

/-- `LightClientUpdate` (update.rs:54-98). -/
structure Update (f : Fork) where
  attested : LcHeader f
  nextSyncCommittee : SyncCommittee
  nextBranch : Vec Id (committeeBranchLen f)
  finalized : LcHeader f
  finalityBranch : Vec Id (finalityBranchLen f)
  aggregate : SyncAggregate
  signatureSlot : UInt64
deriving DecidableEq

def updateCodec (f : Fork) : Codec (Update f) :=
  container (.cons (lcHeaderCodec f) <| .cons syncCommitteeCodec <|
      .cons (vector hash (committeeBranchLen f)) <| .cons (lcHeaderCodec f) <|
      .cons (vector hash (finalityBranchLen f)) <| .cons syncAggregateCodec <| .cons u64 .nil)
    (fun (a, b, c, d, e, g, h, _) => ⟨a, b, c, d, e, g, h⟩)
    (fun x => (x.attested, x.nextSyncCommittee, x.nextBranch, x.finalized, x.finalityBranch, x.aggregate,
      x.signatureSlot, ()))

/-- `LightClientFinalityUpdate` (finality_update.rs:45-77). -/
structure FinalityUpdate (f : Fork) where
  attested : LcHeader f
  finalized : LcHeader f
  finalityBranch : Vec Id (finalityBranchLen f)
  aggregate : SyncAggregate
  signatureSlot : UInt64
deriving DecidableEq

def finalityCodec (f : Fork) : Codec (FinalityUpdate f) :=
  container (.cons (lcHeaderCodec f) <| .cons (lcHeaderCodec f) <|
      .cons (vector hash (finalityBranchLen f)) <| .cons syncAggregateCodec <| .cons u64 .nil)
    (fun (a, b, c, d, e, _) => ⟨a, b, c, d, e⟩)
    (fun x => (x.attested, x.finalized, x.finalityBranch, x.aggregate, x.signatureSlot, ()))

/-- `LightClientOptimisticUpdate` (optimistic_update.rs:38-53). -/
structure OptimisticUpdate (f : Fork) where
  attested : LcHeader f
  aggregate : SyncAggregate
  signatureSlot : UInt64
deriving DecidableEq

def optimisticCodec (f : Fork) : Codec (OptimisticUpdate f) :=
  container (.cons (lcHeaderCodec f) <| .cons syncAggregateCodec <| .cons u64 .nil)
    (fun (a, b, c, _) => ⟨a, b, c⟩) (fun x => (x.attested, x.aggregate, x.signatureSlot, ()))

/-- `HistoricalSummary` (historical_summaries.rs:19-22). -/
structure Summary where
  blockRoot : Id
  stateRoot : Id
deriving DecidableEq

def summaryCodec : Codec Summary :=
  container (.cons hash <| .cons hash .nil) (fun (a, b, _) => ⟨a, b⟩) (fun x => (x.blockRoot, x.stateRoot, ()))

/-- `HistoricalSummariesWithProof` (historical_summaries.rs:36-40). -/
structure Summaries where
  epoch : UInt64
  summaries : BList Summary 16777216
  proof : Vec Id 6
deriving DecidableEq

def summariesCodec : Codec Summaries :=
  container (.cons u64 <| .cons (list summaryCodec 16777216) <| .cons (vector hash 6) .nil)
    (fun (a, b, c, _) => ⟨a, b, c⟩) (fun x => (x.epoch, x.summaries, x.proof, ()))

/-- Why decoding did not give a value: `DecodeError`, or the slice index `[0..4]` out of range, which
panics. -/
inductive DecErr where
  | malformed
  | abort
deriving DecidableEq, Repr

def ofOption {α} : Option α → Except DecErr α
  | some x => .ok x
  | none => .error .malformed

/-- A value with its fork. Simplified: the pair (`fork_name`, variant) of the wrapper structures always
agrees, as every constructor in /repo makes it. -/
def Versioned (T : Fork → Type) := (f : Fork) × T f

/-- `encode` of the four light client wrappers (beacon.rs:59-65, 139-145, 281-287, 361-367). -/
def encodeVersioned {T : Fork → Type} (c : ∀ f, Codec (T f)) (v : Versioned T) : Bytes :=
  v.1.digest ++ (c v.1).enc v.2

/-- `decode` of the four light client wrappers (beacon.rs:67-94, 147-174, 289-317, 369-397): `&bytes[0..4]`
panics on a shorter value. -/
def decodeVersioned {T : Fork → Type} (c : ∀ f, Codec (T f)) (bs : Bytes) : Except DecErr (Versioned T) :=
  if bs.length < 4 then .error .abort
  else
    match Fork.ofDigest (bs.take 4) with
    | none => .error .malformed
    | some f =>
      match (c f).dec (bs.drop 4) with
      | none => .error .malformed
      | some x => .ok ⟨f, x⟩

/-- The items of `decode_list_of_variable_length_items`, decoded while the offsets are read: `left` items
are left, the next offset to read is number `i`, the current item starts at `off`. -/
def rangeItems {α} (dec : Bytes → Except DecErr α) (bs : Bytes) (first : Nat) :
    (left i off : Nat) → Except DecErr (List α)
  | 0, _, _ => .ok []
  | 1, _, off =>
    match dec (bs.drop off) with
    | .error e => .error e
    | .ok x => .ok [x]
  | left + 2, i, off =>
    let next := fromLe ((bs.drop (4 * i)).take 4)
    if next < first ∨ bs.length < next ∨ next < off then .error .malformed
    else
      match dec ((bs.drop off).take (next - off)) with
      | .error e => .error e
      | .ok x =>
        match rangeItems dec bs first (left + 1) (i + 1) next with
        | .error e => .error e
        | .ok xs => .ok (x :: xs)

/-- `decode_list_of_variable_length_items` with items whose decoding may abort. -/
def decodeRange {α} (dec : Bytes → Except DecErr α) (max : Nat) (bs : Bytes) :
    Except DecErr (List α) :=
  if bs = [] then .ok []
  else if bs.length < 4 then .error .malformed
  else
    let first := fromLe (bs.take 4)
    if bs.length < first then .error .malformed
    else if first % 4 ≠ 0 ∨ first < 4 then .error .malformed
    else if max < first / 4 then .error .malformed
    else rangeItems dec bs first (first / 4) 1 first

/-- `BeaconContentValue` (beacon.rs:498-504). -/
inductive Value where
  | summaries (f : Fork) (s : Summaries)
  | bootstrap (v : Versioned Bootstrap)
  | updates (l : BList (Versioned Update) 128)
  | optimistic (v : Versioned OptimisticUpdate)
  | finality (v : Versioned FinalityUpdate)

/-- `encode` (beacon.rs:509-517). -/
def Value.encode : Value → Bytes
  | .summaries f s => f.digest ++ summariesCodec.enc s
  | .bootstrap v => encodeVersioned bootstrapCodec v
  | .updates l => encodeVarList (l.1.map (encodeVersioned updateCodec))
  | .optimistic v => encodeVersioned optimisticCodec v
  | .finality v => encodeVersioned finalityCodec v

/-- `ForkVersionedHistoricalSummariesWithProof::from_ssz_bytes` (beacon.rs:469-493): `split_at_checked`. -/
def decodeSummaries (bs : Bytes) : Except DecErr (Fork × Summaries) :=
  if bs.length < 4 then .error .malformed
  else
    match Fork.ofDigest (bs.take 4) with
    | none => .error .malformed
    | some f =>
      match summariesCodec.dec (bs.drop 4) with
      | none => .error .malformed
      | some s => .ok (f, s)

/-- `LightClientUpdatesByRange::from_ssz_bytes` (beacon.rs:258-261). -/
def decodeUpdates (bs : Bytes) : Except DecErr (BList (Versioned Update) 128) :=
  match decodeRange (decodeVersioned updateCodec) 128 bs with
  | .error e => .error e
  | .ok l => ofOption (toBList 128 l)

/-- `decode` (beacon.rs:519-552). -/
def Value.decode (key : ContentKey.Beacon) (bs : Bytes) : Except DecErr Value :=
  match key with
  | .bootstrap _ => (decodeVersioned bootstrapCodec bs).map .bootstrap
  | .updatesByRange .. => (decodeUpdates bs).map .updates
  | .finalityUpdate _ => (decodeVersioned finalityCodec bs).map .finality
  | .optimisticUpdate _ => (decodeVersioned optimisticCodec bs).map .optimistic
  | .historicalSummaries _ => (decodeSummaries bs).map fun p => .summaries p.1 p.2

end Verif.BeaconValue
