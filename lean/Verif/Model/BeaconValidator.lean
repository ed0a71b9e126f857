import Verif.Model.BeaconValue
import Verif.Model.LightClient

/-! # The validator of the beacon subnetwork (crates/subnetworks/beacon/src/validation.rs) -/

namespace Verif.BeaconValidator
open Verif.BeaconValue Verif.SszT Verif.Merkle Verif.HeaderValidator

/-- What the header oracle answers (crates/validation/src/oracle.rs:84-99); `none` is a failed request, as
when the light client is not running. -/
structure Oracle where
  finalizedHeader : Option LightClient.Header
  store : Option LightClient.Store
  stateRoot : Option Id

/-- `chain.genesis_root` and `forks.electra.fork_version` of the light client configuration. -/
structure Net where
  genesisRoot : Id
  electraVersion : Bytes

/-- `ValidationResult` without the messages; `abort` is a panic of the task. -/
inductive Outcome where
  | valid
  | invalid
  | abort
deriving DecidableEq, Repr

/-- The configuration `verify_generic_update` is called with (validation.rs:131-137): the fork version is
given, whatever the slot. -/
def Net.config (net : Net) : LightClient.Config where
  checkpoint := 0
  genesisRoot := net.genesisRoot
  maxCheckpointAge := 0
  strictCheckpointAge := false
  forks := [(0, net.electraVersion)]
  genesisVersion := net.electraVersion

/-- The bits of a `BitVector`, lowest bit of the first byte first (library `ssz_types`). -/
def bitsOf (bs : Bytes) : List Bool :=
  (bs.map fun b => (List.range 8).map fun i => b.toNat.testBit i).flatten

def committeeOf (c : SyncCommittee) : LightClient.Committee :=
  ⟨c.pubkeys.1.map (·.1), c.aggregatePubkey.1⟩

/-- The `From` implementations for the Electra types (light-client/src/consensus/types.rs:30-70). -/
def genericUpdate (u : Update .electra) : LightClient.Update where
  attested := u.attested.beacon
  bits := bitsOf u.aggregate.bits.1
  signature := u.aggregate.signature.1
  signatureSlot := u.signatureSlot.toNat
  nextCommittee := some (committeeOf u.nextSyncCommittee)
  nextBranch := some u.nextBranch.1
  finalized := some u.finalized.beacon
  finalityBranch := some u.finalityBranch.1

def genericFinality (u : FinalityUpdate .electra) : LightClient.Update where
  attested := u.attested.beacon
  bits := bitsOf u.aggregate.bits.1
  signature := u.aggregate.signature.1
  signatureSlot := u.signatureSlot.toNat
  nextCommittee := none
  nextBranch := none
  finalized := some u.finalized.beacon
  finalityBranch := some u.finalityBranch.1

def genericOptimistic (u : OptimisticUpdate .electra) : LightClient.Update where
  attested := u.attested.beacon
  bits := bitsOf u.aggregate.bits.1
  signature := u.aggregate.signature.1
  signatureSlot := u.signatureSlot.toNat
  nextCommittee := none
  nextBranch := none
  finalized := none
  finalityBranch := none

variable (env : LightClient.Env) (net : Net) (now : Nat) (oracle : Oracle)

/-- `verify_generic_update` with its errors turned into `Invalid`. -/
def verifyUpdate (store : LightClient.Store) (u : LightClient.Update) : Outcome :=
  match LightClient.verify env net.config now store u with
  | .ok () => .valid
  | .error .panic => .abort
  | .error _ => .invalid

/-- The loop over the updates of a range (validation.rs:127-152). -/
def verifyUpdates (store : LightClient.Store) : List (Versioned Update) → Outcome
  | [] => .valid
  | ⟨.electra, u⟩ :: rest =>
    match verifyUpdate env net now store (genericUpdate u) with
    | .valid => verifyUpdates store rest
    | r => r
  | _ :: _ => .invalid

/-- 120 days in slots of 12 seconds (validation.rs:79-81). -/
def fourMonths : Nat := 30 * 4 * 24 * 3600 / 12

/-- validation.rs:65-98. The subtraction in line 82 panics or wraps in the first four months after
genesis. -/
def validateBootstrap (bs : Bytes) : Outcome :=
  match decodeVersioned bootstrapCodec bs with
  | .error .abort => .abort
  | .error .malformed => .invalid
  | .ok ⟨_, b⟩ =>
    if now < fourMonths then .abort
    else if b.header.beacon.slot.toNat < now - fourMonths then .invalid
    else
      match oracle.finalizedHeader with
      | none => .valid
      | some h => if h ≠ b.header.beacon then .invalid else .valid

/-- validation.rs:99-153. -/
def validateRange (count : UInt64) (bs : Bytes) : Outcome :=
  match decodeUpdates bs with
  | .error .abort => .abort
  | .error .malformed => .invalid
  | .ok l =>
    if l.1.length ≠ count.toNat then .invalid
    else
      match oracle.store with
      | none => .valid
      | some s => verifyUpdates env net now s l.1

/-- validation.rs:154-211. -/
def validateFinality (slot : UInt64) (bs : Bytes) : Outcome :=
  match decodeVersioned finalityCodec bs with
  | .error .abort => .abort
  | .error .malformed => .invalid
  | .ok ⟨.electra, u⟩ =>
    if slot > u.finalized.beacon.slot then .invalid
    else
      match oracle.store with
      | none => .valid
      | some s => verifyUpdate env net now s (genericFinality u)
  | .ok _ => .invalid

/-- validation.rs:212-269. -/
def validateOptimistic (slot : UInt64) (bs : Bytes) : Outcome :=
  match decodeVersioned optimisticCodec bs with
  | .error .abort => .abort
  | .error .malformed => .invalid
  | .ok ⟨.electra, u⟩ =>
    if slot ≠ u.signatureSlot then .invalid
    else
      match oracle.store with
      | none => .valid
      | some s => verifyUpdate env net now s (genericOptimistic u)
  | .ok _ => .invalid

/-- `HistoricalSummaries::tree_hash_root`: a list of at most 2^24 summaries. -/
def summariesRoot (H : Id → Id → Id) (l : List BeaconValue.Summary) : Id :=
  H (listRoot H 24 (l.map fun s => H s.blockRoot s.stateRoot)) (leNode l.length)

/-- validation.rs:270-305 and 313-342; the index is the generalized index 91
(historical_summaries.rs:9-11), the depth is the length of the proof type. -/
def validateSummaries (epoch : UInt64) (bs : Bytes) : Outcome :=
  match decodeSummaries bs with
  | .error .abort => .abort
  | .error .malformed => .invalid
  | .ok (_, s) =>
    if s.epoch ≠ epoch then .invalid
    else
      match oracle.stateRoot with
      | none => .valid
      | some root =>
        if verifyMerkleProof env.H (summariesRoot env.H s.summaries.1) s.proof.1 6 91 root then .valid
        else .invalid

/-- `BeaconValidator::validate_content` (validation.rs:59-309). -/
def validate (key : ContentKey.Beacon) (bs : Bytes) : Outcome :=
  match key with
  | .bootstrap _ => validateBootstrap now oracle bs
  | .updatesByRange _ count => validateRange env net now oracle count bs
  | .finalityUpdate slot => validateFinality env net now oracle slot bs
  | .optimisticUpdate slot => validateOptimistic env net now oracle slot bs
  | .historicalSummaries epoch => validateSummaries env oracle epoch bs

end Verif.BeaconValidator
