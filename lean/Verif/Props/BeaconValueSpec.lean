import Verif.Model.BeaconValue

/-! # Byte layout of beacon content values

Written out from the Portal beacon specification: a fork digest of four bytes, then the fields of the
container in order, with a four byte offset in the place of each variable-size field and that field behind
the fixed part. -/

namespace Verif.Props.BeaconFormat
open Verif.BeaconValue Verif.Ssz
open Verif.LightClient (Header)

/-- 8 bytes, least significant first. -/
def num (n : UInt64) : Bytes := toLe 8 n.toNat
/-- 4 byte offset. -/
def offset (n : Nat) : Bytes := toLe 4 n
def roots (l : List Id) : Bytes := (l.map Id.bytes).flatten

def header (h : Header) : Bytes :=
  num h.slot ++ num h.proposerIndex ++ h.parentRoot.bytes ++ h.stateRoot.bytes ++ h.bodyRoot.bytes

def execCapella (x : ExecCapella) : Bytes :=
  x.parentHash.bytes ++ x.feeRecipient.1 ++ x.stateRoot.bytes ++ x.receiptsRoot.bytes ++ x.logsBloom.1 ++
  x.prevRandao.bytes ++ num x.blockNumber ++ num x.gasLimit ++ num x.gasUsed ++ num x.timestamp ++
  offset 568 ++ toLe 32 x.baseFeePerGas.toNat ++ x.blockHash.bytes ++ x.transactionsRoot.bytes ++
  x.withdrawalsRoot.bytes ++ x.extraData.1

def execDeneb (x : ExecDeneb) : Bytes :=
  x.parentHash.bytes ++ x.feeRecipient.1 ++ x.stateRoot.bytes ++ x.receiptsRoot.bytes ++ x.logsBloom.1 ++
  x.prevRandao.bytes ++ num x.blockNumber ++ num x.gasLimit ++ num x.gasUsed ++ num x.timestamp ++
  offset 584 ++ toLe 32 x.baseFeePerGas.toNat ++ x.blockHash.bytes ++ x.transactionsRoot.bytes ++
  x.withdrawalsRoot.bytes ++ num x.blobGasUsed ++ num x.excessBlobGas ++ x.extraData.1

def lcHeader : (f : Fork) → LcHeader f → Bytes
  | .bellatrix, x => header x.beacon
  | .capella, x => header x.beacon ++ offset 244 ++ roots x.exec.2.1 ++ execCapella x.exec.1
  | .deneb, x => header x.beacon ++ offset 244 ++ roots x.exec.2.1 ++ execDeneb x.exec.1
  | .electra, x => header x.beacon ++ offset 244 ++ roots x.exec.2.1 ++ execDeneb x.exec.1

def committee (c : SyncCommittee) : Bytes := (c.pubkeys.1.map (·.1)).flatten ++ c.aggregatePubkey.1
def aggregate (a : SyncAggregate) : Bytes := a.bits.1 ++ a.signature.1

/-- A committee takes 512 · 48 + 48 bytes, an aggregate 64 + 96. -/
def bootstrap : (f : Fork) → Bootstrap f → Bytes
  | .bellatrix, x => lcHeader _ x.header ++ committee x.currentSyncCommittee ++ roots x.branch.1
  | .capella, x => offset (4 + 24624 + 5 * 32) ++ committee x.currentSyncCommittee ++ roots x.branch.1 ++
      lcHeader _ x.header
  | .deneb, x => offset (4 + 24624 + 5 * 32) ++ committee x.currentSyncCommittee ++ roots x.branch.1 ++
      lcHeader _ x.header
  | .electra, x => offset (4 + 24624 + 6 * 32) ++ committee x.currentSyncCommittee ++ roots x.branch.1 ++
      lcHeader _ x.header

/-- The four forks but the first: two headers of variable size. -/
def updateWith (o : Nat) (h₁ h₂ c b₁ b₂ a s : Bytes) : Bytes :=
  offset o ++ c ++ b₁ ++ offset (o + h₁.length) ++ b₂ ++ a ++ s ++ h₁ ++ h₂

def update : (f : Fork) → Update f → Bytes
  | .bellatrix, x => lcHeader _ x.attested ++ committee x.nextSyncCommittee ++ roots x.nextBranch.1 ++
      lcHeader _ x.finalized ++ roots x.finalityBranch.1 ++ aggregate x.aggregate ++ num x.signatureSlot
  | .capella, x => updateWith (4 + 24624 + 5 * 32 + 4 + 6 * 32 + 160 + 8) (lcHeader _ x.attested)
      (lcHeader _ x.finalized) (committee x.nextSyncCommittee) (roots x.nextBranch.1)
      (roots x.finalityBranch.1) (aggregate x.aggregate) (num x.signatureSlot)
  | .deneb, x => updateWith (4 + 24624 + 5 * 32 + 4 + 6 * 32 + 160 + 8) (lcHeader _ x.attested)
      (lcHeader _ x.finalized) (committee x.nextSyncCommittee) (roots x.nextBranch.1)
      (roots x.finalityBranch.1) (aggregate x.aggregate) (num x.signatureSlot)
  | .electra, x => updateWith (4 + 24624 + 6 * 32 + 4 + 7 * 32 + 160 + 8) (lcHeader _ x.attested)
      (lcHeader _ x.finalized) (committee x.nextSyncCommittee) (roots x.nextBranch.1)
      (roots x.finalityBranch.1) (aggregate x.aggregate) (num x.signatureSlot)

def finalityWith (o : Nat) (h₁ h₂ b a s : Bytes) : Bytes :=
  offset o ++ offset (o + h₁.length) ++ b ++ a ++ s ++ h₁ ++ h₂

def finality : (f : Fork) → FinalityUpdate f → Bytes
  | .bellatrix, x => lcHeader _ x.attested ++ lcHeader _ x.finalized ++ roots x.finalityBranch.1 ++
      aggregate x.aggregate ++ num x.signatureSlot
  | .capella, x => finalityWith (4 + 4 + 6 * 32 + 160 + 8) (lcHeader _ x.attested) (lcHeader _ x.finalized)
      (roots x.finalityBranch.1) (aggregate x.aggregate) (num x.signatureSlot)
  | .deneb, x => finalityWith (4 + 4 + 6 * 32 + 160 + 8) (lcHeader _ x.attested) (lcHeader _ x.finalized)
      (roots x.finalityBranch.1) (aggregate x.aggregate) (num x.signatureSlot)
  | .electra, x => finalityWith (4 + 4 + 7 * 32 + 160 + 8) (lcHeader _ x.attested) (lcHeader _ x.finalized)
      (roots x.finalityBranch.1) (aggregate x.aggregate) (num x.signatureSlot)

def optimistic : (f : Fork) → OptimisticUpdate f → Bytes
  | .bellatrix, x => lcHeader _ x.attested ++ aggregate x.aggregate ++ num x.signatureSlot
  | .capella, x => offset (4 + 160 + 8) ++ aggregate x.aggregate ++ num x.signatureSlot ++ lcHeader _ x.attested
  | .deneb, x => offset (4 + 160 + 8) ++ aggregate x.aggregate ++ num x.signatureSlot ++ lcHeader _ x.attested
  | .electra, x => offset (4 + 160 + 8) ++ aggregate x.aggregate ++ num x.signatureSlot ++ lcHeader _ x.attested

def summaries (s : Summaries) : Bytes :=
  num s.epoch ++ offset (8 + 4 + 6 * 32) ++ roots s.proof.1 ++
    (s.summaries.1.map fun x => x.blockRoot.bytes ++ x.stateRoot.bytes).flatten

/-- The digests of the Ethereum mainnet forks. -/
def digest : Fork → Bytes
  | .bellatrix => [0x4a, 0x26, 0xc5, 0x8b]
  | .capella => [0xbb, 0xa4, 0xda, 0x96]
  | .deneb => [0x6a, 0x95, 0xa1, 0xa9]
  | .electra => [0xad, 0x53, 0x2c, 0xeb]

/-- Offsets of the items of a list, the first item starting at `o`. -/
def offsets : Nat → List Bytes → Bytes
  | _, [] => []
  | o, b :: bs => offset o ++ offsets (o + b.length) bs

def list (items : List Bytes) : Bytes := offsets (4 * items.length) items ++ items.flatten

def value : Value → Bytes
  | .summaries f s => digest f ++ summaries s
  | .bootstrap v => digest v.1 ++ bootstrap v.1 v.2
  | .updates l => list (l.1.map fun v => digest v.1 ++ update v.1 v.2)
  | .optimistic v => digest v.1 ++ optimistic v.1 v.2
  | .finality v => digest v.1 ++ finality v.1 v.2

/-- The kind of value that belongs to a key. -/
def Belongs : ContentKey.Beacon → Value → Prop
  | .bootstrap _, .bootstrap _ => True
  | .updatesByRange .., .updates _ => True
  | .finalityUpdate _, .finality _ => True
  | .optimisticUpdate _, .optimistic _ => True
  | .historicalSummaries _, .summaries .. => True
  | _, _ => False

end Verif.Props.BeaconFormat
