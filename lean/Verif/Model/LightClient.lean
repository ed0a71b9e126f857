import Verif.Model.HeaderValidator
import Verif.Model.Merkle

/-! # The consensus light client (crates/light-client/src/consensus/{consensus_client,types,utils}.rs)

Slots are natural numbers below 2^64. SHA-256 of two nodes is `H`, BLS verification is `verifySig`. Logging
is left out. -/

namespace Verif.LightClient
open Verif.Merkle Verif.HeaderValidator

/-- `BeaconBlockHeader` (ethportal-api/src/types/consensus/header.rs:11-19). -/
structure Header where
  slot : UInt64
  proposerIndex : UInt64
  parentRoot : Id
  stateRoot : Id
  bodyRoot : Id
deriving DecidableEq, Repr

/-- `SyncCommittee` (sync_committee.rs:11-14); keys are byte strings. -/
structure Committee where
  pubkeys : List Bytes
  aggregate : Bytes
deriving DecidableEq, Repr

/-- What the client computes with but is not modelled. -/
structure Env where
  /-- SHA-256 of two nodes -/
  H : Id → Id → Id
  /-- whether `PublicKey::from_bytes_unchecked` succeeds -/
  keyOk : Bytes → Bool
  /-- `is_aggregate_valid` (utils.rs:16-22): signature, message, keys -/
  verifySig : Bytes → Id → List Bytes → Bool

/-- The parts of `Config` used here. -/
structure Config where
  checkpoint : Id
  genesisRoot : Id
  maxCheckpointAge : Nat
  strictCheckpointAge : Bool
  /-- epoch and version of electra, deneb, capella, bellatrix, altair -/
  forks : List (Nat × Bytes)
  genesisVersion : Bytes

/-- `BeaconBlockHeader::tree_hash_root`: five fields, padded to eight leaves. -/
def headerRoot (H : Id → Id → Id) (h : Header) : Id :=
  H (H (H (leNode h.slot.toNat) (leNode h.proposerIndex.toNat)) (H h.parentRoot h.stateRoot))
    (H (H h.bodyRoot 0) (H 0 0))

/-- A chunk of at most 32 bytes, padded with zeros. -/
def chunk (bs : Bytes) : Id := BitVec.ofNat 256 (fromBe (bs ++ List.replicate (32 - bs.length) 0))

/-- `PubKey::tree_hash_root` (types/consensus/pubkey.rs): 48 bytes in two chunks. -/
def pubkeyRoot (H : Id → Id → Id) (k : Bytes) : Id := H (chunk (k.take 32)) (chunk (k.drop 32))

/-- `SyncCommittee::tree_hash_root` (derived): a vector of 512 keys and the aggregate key. -/
def committeeRoot (H : Id → Id → Id) (c : Committee) : Id :=
  H (listRoot H 9 (c.pubkeys.map (pubkeyRoot H))) (pubkeyRoot H c.aggregate)

/-- `calc_sync_period` (utils.rs:11-14). -/
def syncPeriod (slot : Nat) : Nat := slot / 32 / 256

/-- `Config::fork_version` (config/client_config.rs:65-81). -/
def Config.forkVersion (c : Config) (slot : Nat) : Bytes :=
  match c.forks.find? fun f => slot / 32 ≥ f.1 with
  | some f => f.2
  | none => c.genesisVersion

/-- `compute_domain` (utils.rs:53-62) with `compute_fork_data_root` (light-client/src/utils.rs:15-24) and
the domain type of line 620 of consensus_client.rs. -/
def domain (H : Id → Id → Id) (version : Bytes) (genesisRoot : Id) : Id :=
  let forkDataRoot := H (chunk version) genesisRoot
  BitVec.ofNat 256 (fromBe ([7, 0, 0, 0] ++ forkDataRoot.bytes.take 28))

/-- `compute_committee_sign_root` and `compute_signing_root` (consensus_client.rs:615-623,
utils.rs:45-51). -/
def signingRoot (H : Id → Id → Id) (genesisRoot headerRoot : Id) (version : Bytes) : Id :=
  H headerRoot (domain H version genesisRoot)

/-- `GenericUpdate` (types.rs:19-28). -/
structure Update where
  attested : Header
  /-- `sync_aggregate.sync_committee_bits`, 512 bits -/
  bits : List Bool
  signature : Bytes
  signatureSlot : Nat
  nextCommittee : Option Committee
  nextBranch : Option (List Id)
  finalized : Option Header
  finalityBranch : Option (List Id)
deriving DecidableEq, Repr

/-- `LightClientUpdateElectra`, `LightClientFinalityUpdateElectra`, `LightClientOptimisticUpdateElectra`,
with the beacon header of each light client header. -/
inductive Msg where
  | full (attested : Header) (bits : List Bool) (signature : Bytes) (signatureSlot : Nat)
      (nextCommittee : Committee) (nextBranch : List Id) (finalized : Header) (finalityBranch : List Id)
  | finality (attested : Header) (bits : List Bool) (signature : Bytes) (signatureSlot : Nat)
      (finalized : Header) (finalityBranch : List Id)
  | optimistic (attested : Header) (bits : List Bool) (signature : Bytes) (signatureSlot : Nat)
deriving DecidableEq, Repr

/-- The three `From` implementations (types.rs:30-70). -/
def Msg.generic : Msg → Update
  | .full a b s t nc nb f fb => ⟨a, b, s, t, some nc, some nb, some f, some fb⟩
  | .finality a b s t f fb => ⟨a, b, s, t, none, none, some f, some fb⟩
  | .optimistic a b s t => ⟨a, b, s, t, none, none, none, none⟩

/-- `LightClientStore` (light_client/store.rs:7-14). -/
structure Store where
  finalized : Header
  current : Committee
  next : Option Committee
  optimistic : Header
  previousMax : Nat
  currentMax : Nat
deriving DecidableEq, Repr

/-- `ConsensusError` (errors.rs:5-28); `panic` is the `expect` of a bad key (633) or the subtraction in
line 516 (with overflow checks). -/
inductive Err where
  | insufficientParticipation | invalidTimestamp | invalidPeriod | notRelevant | invalidFinalityProof
  | invalidNextSyncCommitteeProof | invalidCurrentSyncCommitteeProof | invalidSignature | invalidHeaderHash
  | checkpointTooOld | rpc | panic
deriving DecidableEq, Repr

/-- `get_bits` (consensus_client.rs:641-650). -/
def countBits (bits : List Bool) : Nat := bits.count true

/-- `get_participating_keys` (consensus_client.rs:625-639), before the conversion of the keys. -/
def participatingKeys (c : Committee) (bits : List Bool) : List Bytes :=
  ((c.pubkeys.zip bits).filter fun kb => kb.2).map fun kb => kb.1

variable (env : Env)

/-- `is_proof_valid` (utils.rs:24-37). The branches are vectors of fixed length, so the assertion of
`merkle_root_from_branch` holds; another length is refused here. -/
def proofValid (attested : Header) (leaf : Id) (branch : List Id) (depth index : Nat) : Bool :=
  verifyMerkleProof env.H leaf branch depth index attested.stateRoot

/-- consensus_client.rs:674-708. -/
def finalityProofValid (attested finalized : Header) (branch : List Id) : Bool :=
  proofValid env attested (headerRoot env.H finalized) branch 7 41
def nextCommitteeProofValid (attested : Header) (next : Committee) (branch : List Id) : Bool :=
  proofValid env attested (committeeRoot env.H next) branch 6 23
def currentCommitteeProofValid (attested : Header) (current : Committee) (branch : List Id) : Bool :=
  proofValid env attested (committeeRoot env.H current) branch 6 22

/-- The two proofs of an update (consensus_client.rs:562-590). -/
def checkFinality (u : Update) : Bool :=
  match u.finalized, u.finalityBranch with
  | some f, some b => finalityProofValid env u.attested f b
  | _, _ => true
def checkNext (u : Update) : Bool :=
  match u.nextCommittee, u.nextBranch with
  | some c, some b => nextCommitteeProofValid env u.attested c b
  | _, _ => true

/-- `update.finalized_header.clone().unwrap_or_default().slot` (538) and 312-316. -/
def Update.finalizedSlot (u : Update) : Nat :=
  match u.finalized with
  | some f => f.slot.toNat
  | none => 0

/-- consensus_client.rs:592-599. -/
def signingCommittee (s : Store) (u : Update) : Option Committee :=
  if syncPeriod u.signatureSlot = syncPeriod s.finalized.slot.toNat then some s.current else s.next

/-- The signature part (consensus_client.rs:601-610). -/
def checkSignature (cfg : Config) (c : Committee) (u : Update) : Except Err Unit :=
  let keys := participatingKeys c u.bits
  if keys.all env.keyOk = false then .error .panic
  else if env.verifySig u.signature
      (signingRoot env.H cfg.genesisRoot (headerRoot env.H u.attested) (cfg.forkVersion u.signatureSlot)) keys
    then .ok ()
  else .error .invalidSignature

/-- `verify_generic_update` (consensus_client.rs:528-613); `now` is the expected current slot. -/
def verify (cfg : Config) (now : Nat) (s : Store) (u : Update) : Except Err Unit :=
  let storePeriod := syncPeriod s.finalized.slot.toNat
  let sigPeriod := syncPeriod u.signatureSlot
  if countBits u.bits = 0 then .error .insufficientParticipation
  else if ¬(now ≥ u.signatureSlot ∧ u.signatureSlot > u.attested.slot.toNat ∧
      u.attested.slot.toNat ≥ u.finalizedSlot) then .error .invalidTimestamp
  else if ¬(sigPeriod = storePeriod ∨ (s.next.isSome = true ∧ sigPeriod = storePeriod + 1)) then
    .error .invalidPeriod
  else if ¬(u.attested.slot.toNat > s.finalized.slot.toNat ∨
      (s.next.isNone = true ∧ u.nextCommittee.isSome = true ∧
        syncPeriod u.attested.slot.toNat = storePeriod)) then .error .notRelevant
  else if checkFinality env u = false then .error .invalidFinalityProof
  else if checkNext env u = false then .error .invalidNextSyncCommitteeProof
  else
    match signingCommittee s u with
    | none => .error .panic
    | some c => checkSignature env cfg c u

/-- consensus_client.rs:297-308, with `safety_threshold` (465-470). -/
def applyOptimistic (s : Store) (u : Update) : Store :=
  let bits := countBits u.bits
  let s := { s with currentMax := max s.currentMax bits }
  if bits > max s.currentMax s.previousMax / 2 ∧ u.attested.slot.toNat > s.optimistic.slot.toNat then
    { s with optimistic := u.attested }
  else s

/-- consensus_client.rs:310-334, with `has_sync_update` and `has_finality_update` (457-463). -/
def shouldApply (s : Store) (u : Update) : Bool :=
  let hasFinalizedNext := s.next.isNone && (u.nextCommittee.isSome && u.nextBranch.isSome) &&
    (u.finalized.isSome && u.finalityBranch.isSome) &&
    syncPeriod u.finalizedSlot == syncPeriod u.attested.slot.toNat
  decide (countBits u.bits * 3 ≥ 512 * 2) &&
    (decide (u.finalizedSlot > s.finalized.slot.toNat) || hasFinalizedNext)

/-- consensus_client.rs:337-356. -/
def applyCommittees (s : Store) (u : Update) : Store :=
  match s.next with
  | none => { s with next := u.nextCommittee }
  | some n =>
    if syncPeriod u.finalizedSlot = syncPeriod s.finalized.slot.toNat + 1 then
      { s with current := n, next := u.nextCommittee, previousMax := s.currentMax, currentMax := 0 }
    else s

/-- consensus_client.rs:358-374. -/
def applyFinalized (s : Store) (u : Update) : Store :=
  match u.finalized with
  | none => s
  | some f =>
    if f.slot.toNat > s.finalized.slot.toNat then
      { s with
        finalized := f
        optimistic := if f.slot.toNat > s.optimistic.slot.toNat then f else s.optimistic }
    else s

/-- `apply_generic_update` (consensus_client.rs:296-376), the store. -/
def applyUpdate (s : Store) (u : Update) : Store :=
  let s := applyOptimistic s u
  if shouldApply s u then applyFinalized (applyCommittees s u) u else s

/-- `ConsensusLightClient` (consensus_client.rs:38-45), with the values of the watch channels. -/
structure Client where
  store : Store
  lastCheckpoint : Option Id
  watchFull : Option Msg
  watchFinality : Option Msg
  watchOptimistic : Option Msg
deriving DecidableEq, Repr

/-- The last checkpoint (consensus_client.rs:366-369): set when the finalized header is replaced by one at
an epoch boundary. -/
def newCheckpoint (s s' : Store) (old : Option Id) : Option Id :=
  if s'.finalized.slot.toNat > s.finalized.slot.toNat ∧ s'.finalized.slot.toNat % 32 = 0 then
    some (headerRoot env.H s'.finalized)
  else old

/-- `apply_update`, `apply_finality_update`, `apply_optimistic_update` (consensus_client.rs:378-408,
427-438). -/
def applyMsg (c : Client) (m : Msg) : Client :=
  let s' := applyUpdate c.store m.generic
  let c' := { c with store := s', lastCheckpoint := newCheckpoint env c.store s' c.lastCheckpoint }
  let optimisticMoved := c.store.optimistic.slot.toNat < s'.optimistic.slot.toNat
  let finalizedMoved := c.store.finalized.slot.toNat < s'.finalized.slot.toNat
  match m with
  | .full .. => if optimisticMoved ∨ finalizedMoved then { c' with watchFull := some m } else c'
  | .finality .. => if optimisticMoved ∨ finalizedMoved then { c' with watchFinality := some m } else c'
  | .optimistic .. => if optimisticMoved then { c' with watchOptimistic := some m } else c'

/-- `verify_*` followed by `apply_*`, as at every place of use (147-148, 153-154, 162-163, 180-181,
189-190, 199-203). -/
def process (cfg : Config) (now : Nat) (c : Client) (m : Msg) : Except Err Client :=
  match verify env cfg now c.store m.generic with
  | .error e => .error e
  | .ok () => .ok (applyMsg env c m)

/-- `LightClientBootstrapElectra`. -/
structure Bootstrap where
  header : Header
  committee : Committee
  branch : List Id
deriving DecidableEq, Repr

/-- `bootstrap` (consensus_client.rs:211-256) with `is_valid_checkpoint` (511-519): a header of a future
slot makes the subtraction overflow. -/
def bootstrap (cfg : Config) (now : Nat) (c : Client) (b : Bootstrap) : Except Err Client :=
  if b.header.slot.toNat > now then .error .panic
  else if ¬(now * 12 - b.header.slot.toNat * 12 < cfg.maxCheckpointAge) ∧ cfg.strictCheckpointAge = true then
    .error .checkpointTooOld
  else if headerRoot env.H b.header ≠ cfg.checkpoint then .error .invalidHeaderHash
  else if currentCommitteeProofValid env b.header b.committee b.branch = false then
    .error .invalidCurrentSyncCommitteeProof
  else
    .ok { c with store := ⟨b.header, b.committee, none, b.header, 0, 0⟩ }

/-- Processing a list of updates, up to the first that is refused (consensus_client.rs:146-149). The flag
says whether all were accepted. -/
def processAll (cfg : Config) : Client → List (Nat × Msg) → Client × Bool
  | c, [] => (c, true)
  | c, (now, m) :: rest =>
    match process env cfg now c m with
    | .error _ => (c, false)
    | .ok c' => processAll cfg c' rest

/-- What the network answered during a synchronisation, with the current slot at each step. `none` is a
failed request. -/
structure SyncInput where
  bootstrap : Option (Nat × Bootstrap)
  updates : Option (List (Nat × Msg))
  finality : Option (Nat × Msg)
  optimistic : Option (Nat × Msg)

/-- consensus_client.rs:151-163 and 174-190. -/
def latest (cfg : Config) (c : Client) (finality optimistic : Option (Nat × Msg)) : Client × Bool :=
  match processAll env cfg c finality.toList with
  | (c, false) => (c, false)
  | (c, true) =>
    match optimistic with
    | none => (c, false)
    | some o => processAll env cfg c [o]

/-- `sync` (consensus_client.rs:118-171). The flag is `true` for `Ok`. -/
def sync (cfg : Config) (c : Client) (i : SyncInput) : Client × Bool :=
  match i.bootstrap with
  | none => (c, false)
  | some (now, b) =>
    match bootstrap env cfg now c b with
    | .error _ => (c, false)
    | .ok c =>
      match i.updates with
      | none => (c, false)
      | some us =>
        match processAll env cfg c us with
        | (c, false) => (c, false)
        | (c, true) => latest env cfg c i.finality i.optimistic

structure AdvanceInput where
  finality : Option (Nat × Msg)
  optimistic : Option (Nat × Msg)
  updates : Option (List (Nat × Msg))

/-- `advance` (consensus_client.rs:173-209). -/
def advance (cfg : Config) (c : Client) (i : AdvanceInput) : Client × Bool :=
  match latest env cfg c i.finality i.optimistic with
  | (c, false) => (c, false)
  | (c, true) =>
    if c.store.next.isNone then
      match i.updates with
      | none => (c, false)
      | some [u] => ((processAll env cfg c [u]).1, true)
      | some _ => (c, true)
    else (c, true)

end Verif.LightClient
