import Verif.Model.Merkle
import Verif.Model.ChainHead
import Verif.Props.MerkleSpec

/-! # Header validation (crates/validation/src/header_validator.rs, accumulator.rs,
historical_summaries_provider.rs; crates/ethportal-api/src/types/execution/header_with_proof.rs,
types/consensus/{proof,beacon_block,body,execution_payload,beacon_state}.rs) -/

namespace Verif.HeaderValidator
open Verif.Merkle

/-- The part of an execution header that validation reads: number, timestamp and `hash_slow()`. -/
structure Header where
  number : UInt64
  timestamp : UInt64
  hash : Id
deriving DecidableEq, Repr

/-- The activation points of the network spec (`is_paris_active_at_block`,
`is_shanghai_active_at_timestamp`, `is_cancun_active_at_timestamp` of `alloy_hardforks`). -/
structure Net where
  parisBlock : UInt64
  shanghaiTime : UInt64
  cancunTime : UInt64
deriving DecidableEq, Repr

def Net.paris (n : Net) (number : UInt64) : Bool := n.parisBlock ≤ number
def Net.shanghai (n : Net) (t : UInt64) : Bool := n.shanghaiTime ≤ t
def Net.cancun (n : Net) (t : UInt64) : Bool := n.cancunTime ≤ t

/-- `BlockProofHistoricalRoots` (header_with_proof.rs:132-142). -/
structure RootsProof where
  beaconBlockProof : Vector Id 14
  beaconBlockRoot : Id
  executionBlockProof : Vector Id 11
  slot : UInt64
deriving DecidableEq

/-- `BlockProofHistoricalSummariesCapella` (header_with_proof.rs:150-160). -/
structure CapellaProof where
  beaconBlockProof : Vector Id 13
  beaconBlockRoot : Id
  executionBlockProof : Vector Id 11
  slot : UInt64
deriving DecidableEq

/-- `BlockProofHistoricalSummariesDeneb` (header_with_proof.rs:168-178). -/
structure DenebProof where
  beaconBlockProof : Vector Id 13
  beaconBlockRoot : Id
  executionBlockProof : Vector Id 12
  slot : UInt64
deriving DecidableEq

/-- `BlockHeaderProof` (header_with_proof.rs:56-65). -/
inductive HeaderProof where
  | hashes (p : Vector Id 15)
  | roots (p : RootsProof)
  | capella (p : CapellaProof)
  | deneb (p : DenebProof)
deriving DecidableEq

/-- `HistoricalSummary` (consensus/historical_summaries.rs). -/
structure Summary where
  blockSummaryRoot : Id
  stateSummaryRoot : Id
deriving DecidableEq, Repr

/-- Outcome of a validation: `Ok(())`, an error, or a panic. -/
inductive Verdict where
  | accept
  | reject
  | abort
deriving DecidableEq, Repr

/-- `SLOTS_PER_HISTORICAL_ROOT`. -/
abbrev slotsPerRoot : Nat := 8192

/-- `verify_pre_merge_header` (header_validator.rs:99-127); `epochs` is `historical_epochs`, indexing
out of range panics (line 115). -/
def verifyPreMerge (H : Id → Id → Id) (net : Net) (epochs : List Id) (h : Header)
    (proof : Vector Id 15) : Verdict :=
  if net.paris h.number then .reject
  else
    let headerIndex := h.number.toNat % slotsPerRoot
    let genIndex := slotsPerRoot * 2 * 2 + headerIndex * 2
    match epochs[h.number.toNat / slotsPerRoot]? with
    | none => .abort
    | some epochHash =>
      if verifyMerkleProof H h.hash proof.toList 15 genIndex epochHash then .accept else .reject

/-- `verify_bellatrix_to_deneb_execution_block_proof` (header_validator.rs:240-267). -/
def verifyExecBellatrix (H : Id → Id → Id) (hash : Id) (proof : List Id) (root : Id) : Bool :=
  verifyMerkleProof H hash proof proof.length 3228 root

/-- `verify_post_deneb_execution_block_proof` (header_validator.rs:271-298). -/
def verifyExecDeneb (H : Id → Id → Id) (hash : Id) (proof : List Id) (root : Id) : Bool :=
  verifyMerkleProof H hash proof proof.length 6444 root

/-- `verify_historical_roots_beacon_block_proof` (header_validator.rs:302-321); `none` is the
out-of-range panic of line 312. -/
def verifyHistoricalRoots (H : Id → Id → Id) (historicalRoots : List Id) (slot : UInt64) (root : Id)
    (proof : List Id) : Option Bool :=
  match historicalRoots[slot.toNat / slotsPerRoot]? with
  | none => none
  | some historicalRoot =>
    some (verifyMerkleProof H root proof 14 (2 * slotsPerRoot + slot.toNat % slotsPerRoot)
      historicalRoot)

/-- `verify_merge_to_capella_header` (header_validator.rs:130-163). -/
def verifyMergeToCapella (H : Id → Id → Id) (net : Net) (historicalRoots : List Id) (h : Header)
    (p : RootsProof) : Verdict :=
  if !net.paris h.number then .reject
  else if net.shanghai h.timestamp then .reject
  else if !verifyExecBellatrix H h.hash p.executionBlockProof.toList p.beaconBlockRoot then .reject
  else
    match verifyHistoricalRoots H historicalRoots p.slot p.beaconBlockRoot
      p.beaconBlockProof.toList with
    | none => .abort
    | some true => .accept
    | some false => .reject

/-- `HistoricalSummariesProvider::get_historical_summary` (historical_summaries_provider.rs:34-68):
the summary (`none`: error) and the new cache. `source` gives the list that the source returns for an
epoch (`none`: error); for the fixed source it ignores the epoch. -/
def getSummary (cache : List Summary) (source : Nat → Option (List Summary)) (slot : Nat) :
    Option Summary × List Summary :=
  match ChainHead.historicalSummaryIndex slot with
  | none => (none, cache)
  | some i =>
    match cache[i]? with
    | some s => (some s, cache)
    | none =>
      match source (slot / 32) with
      | none => (none, cache)
      | some l =>
        match l[i]? with
        | some s => (some s, l)
        | none => (none, cache)

/-- `verify_historical_summaries_beacon_block_proof` (header_validator.rs:325-347) for the looked-up
summary. -/
def verifySummaries (H : Id → Id → Id) (summary : Option Summary) (slot : UInt64) (root : Id)
    (proof : List Id) : Bool :=
  match summary with
  | none => false
  | some s =>
    verifyMerkleProof H root proof 13 (slotsPerRoot + slot.toNat % slotsPerRoot) s.blockSummaryRoot

/-- `verify_capella_to_deneb_header` (header_validator.rs:166-201). -/
def verifyCapellaToDeneb (H : Id → Id → Id) (net : Net) (cache : List Summary)
    (source : Nat → Option (List Summary)) (h : Header) (p : CapellaProof) :
    Verdict × List Summary :=
  if !net.shanghai h.timestamp then (.reject, cache)
  else if net.cancun h.timestamp then (.reject, cache)
  else if !verifyExecBellatrix H h.hash p.executionBlockProof.toList p.beaconBlockRoot then
    (.reject, cache)
  else
    let r := getSummary cache source p.slot.toNat
    (if verifySummaries H r.1 p.slot p.beaconBlockRoot p.beaconBlockProof.toList then .accept
      else .reject, r.2)

/-- `verify_post_deneb_header` (header_validator.rs:204-236). -/
def verifyPostDeneb (H : Id → Id → Id) (net : Net) (cache : List Summary)
    (source : Nat → Option (List Summary)) (h : Header) (p : DenebProof) : Verdict × List Summary :=
  if !net.cancun h.timestamp then (.reject, cache)
  else if !verifyExecDeneb H h.hash p.executionBlockProof.toList p.beaconBlockRoot then
    (.reject, cache)
  else
    let r := getSummary cache source p.slot.toNat
    (if verifySummaries H r.1 p.slot p.beaconBlockRoot p.beaconBlockProof.toList then .accept
      else .reject, r.2)

/-- The trusted data of a `HeaderValidator` (header_validator.rs:33-40); the summaries cache is the
state. -/
structure Trusted where
  epochs : List Id
  historicalRoots : List Id

/-- `validate_header_with_proof` (header_validator.rs:73-97). -/
def validate (H : Id → Id → Id) (net : Net) (t : Trusted) (cache : List Summary)
    (source : Nat → Option (List Summary)) (h : Header) (p : HeaderProof) : Verdict × List Summary :=
  match p with
  | .hashes p => (verifyPreMerge H net t.epochs h p, cache)
  | .roots p => (verifyMergeToCapella H net t.historicalRoots h p, cache)
  | .capella p => verifyCapellaToDeneb H net cache source h p
  | .deneb p => verifyPostDeneb H net cache source h p

/-- Which proof type a received header is decoded with (header_with_proof.rs:82-96). -/
inductive Kind where
  | hashes | roots | capella | deneb
deriving DecidableEq, Repr

def decodedKind (net : Net) (h : Header) : Kind :=
  if net.cancun h.timestamp then .deneb
  else if net.shanghai h.timestamp then .capella
  else if net.paris h.number then .roots
  else .hashes

def HeaderProof.kind : HeaderProof → Kind
  | .hashes _ => .hashes
  | .roots _ => .roots
  | .capella _ => .capella
  | .deneb _ => .deneb

/-! ## Building proofs -/

/-- `HeaderRecord` (execution/accumulator.rs:16-19). -/
structure Record where
  blockHash : Id
  totalDifficulty : BitVec 256
deriving DecidableEq, Repr

/-- A `U256` as a node: its 32 little-endian bytes read as a `B256`. -/
def leNode (v : Nat) : Id := BitVec.ofNat 256 (fromBe (toLe 32 v))

/-- The leaf of a record (accumulator.rs:89-97). -/
def recordLeaf (H : Id → Id → Id) (r : Record) : Id := H r.blockHash (leNode r.totalDifficulty.toNat)

inductive BuildError where
  | panic
  | hashMismatch
  | proofError
  | badLength
deriving DecidableEq, Repr

/-- `PreMergeAccumulator::construct_proof` (accumulator.rs:58-124). -/
def constructProof (H : Id → Id → Id) (h : Header) (epoch : List Record) :
    Except BuildError (Vector Id 15) :=
  let i := h.number.toNat % slotsPerRoot
  match epoch[i]? with
  | none => .error .panic
  | some r =>
    if r.blockHash ≠ h.hash then .error .hashMismatch
    else
      match create H 13 (epoch.map (recordLeaf H)) with
      | none => .error .panic
      | some tree =>
        match generateProof H i 13 tree with
        | .error _ => .error .proofError
        | .ok (leaf, proof) =>
          if leaf ≠ recordLeaf H r then .error .panic
          else
            let p := leNode r.totalDifficulty.toNat :: proof ++ [leNode epoch.length]
            if hp : p.length = 15 then .ok (Vector.mk p.toArray (by simpa using hp))
            else .error .badLength

/-- Hashing neighbours pairwise, one level of `rs_merkle::MerkleTree::from_leaves`. -/
def pairUp (H : Id → Id → Id) : List Id → List Id
  | a :: b :: rest => H a b :: pairUp H rest
  | l => l

/-- The sibling hashes that `rs_merkle`'s `proof(&[index])` returns for a full tree of depth `d`. -/
def libProof (H : Id → Id → Id) : (d : Nat) → (leaves : List Id) → (index : Nat) → List Id
  | 0, _, _ => []
  | d + 1, leaves, i => leaves.getD (i ^^^ 1) 0 :: libProof H d (pairUp H leaves) (i / 2)

/-- The depth of the tree with `next_power_of_two` of `n` leaves. -/
def depthFor (n : Nat) : Nat := if n ≤ 1 then 0 else Nat.log2 (n - 1) + 1

/-- `build_merkle_proof_for_index` (consensus/proof.rs:4-27). -/
def buildProof (H : Id → Id → Id) (leaves : List Id) (index : Nat) : List Id :=
  let d := depthFor leaves.length
  libProof H d (leaves ++ List.replicate (2 ^ d - leaves.length) 0) index

/-- The forks of a beacon block (consensus/fork.rs). -/
inductive Fork where
  | bellatrix | capella | deneb | electra
deriving DecidableEq, Repr

/-- Number of fields of an execution payload after `block_hash` (execution_payload.rs:47-81). -/
def Fork.payloadRest : Fork → Nat
  | .bellatrix => 1 | .capella => 2 | .deneb => 4 | .electra => 4

/-- Number of fields of a body after `execution_payload` (body.rs:59-96). -/
def Fork.bodyRest : Fork → Nat
  | .bellatrix => 0 | .capella => 1 | .deneb => 2 | .electra => 3

/-- A beacon block seen through the `tree_hash_root`s of its fields. -/
structure Block (fork : Fork) where
  /-- slot, proposer_index, parent_root, state_root (beacon_block.rs:46-56) -/
  head : Vector Id 4
  /-- the nine fields of the body before the payload (body.rs:60-80) -/
  bodyBefore : Vector Id 9
  bodyAfter : Vector Id fork.bodyRest
  /-- the twelve fields of the payload before the block hash (execution_payload.rs:48-67) -/
  payloadBefore : Vector Id 12
  blockHash : Id
  payloadAfter : Vector Id fork.payloadRest

/-- `tree_hash_root` of a container or vector with these field roots: the `tree_hash` crate computes the
Merkle root over the fields padded with zeros to a power of two. -/
def containerRoot (H : Id → Id → Id) (fields : List Id) : Id :=
  listRoot H (depthFor fields.length) fields

namespace Block
variable {fork : Fork}

def payloadLeaves (b : Block fork) : List Id :=
  b.payloadBefore.toList ++ b.blockHash :: b.payloadAfter.toList

def payloadRoot (H : Id → Id → Id) (b : Block fork) : Id := containerRoot H b.payloadLeaves

def bodyLeaves (H : Id → Id → Id) (b : Block fork) : List Id :=
  b.bodyBefore.toList ++ b.payloadRoot H :: b.bodyAfter.toList

def bodyRoot (H : Id → Id → Id) (b : Block fork) : Id := containerRoot H (b.bodyLeaves H)

def blockLeaves (H : Id → Id → Id) (b : Block fork) : List Id := b.head.toList ++ [b.bodyRoot H]

/-- `BeaconBlock*::tree_hash_root`. -/
def root (H : Id → Id → Id) (b : Block fork) : Id := containerRoot H (b.blockLeaves H)

/-- `build_execution_block_hash_proof` (beacon_block.rs:91-98, 114-121, 137-144, 160-167) with
`build_block_hash_proof` (execution_payload.rs:96-189), `build_execution_payload_proof`
(body.rs:111-191) and `build_body_root_proof` (beacon_block.rs:79-89, ...). -/
def executionBlockHashProof (H : Id → Id → Id) (b : Block fork) : List Id :=
  buildProof H b.payloadLeaves 12 ++ buildProof H (b.bodyLeaves H) 9 ++ buildProof H (b.blockLeaves H) 4

end Block

/-- `FixedVector::new(..).expect(..)`: `none` if the length is wrong. -/
def fixed (n : Nat) (l : List Id) : Option (Vector Id n) :=
  if h : l.length = n then some (Vector.mk l.toArray (by simpa using h)) else none

/-- `build_historical_roots_proof` (header_with_proof.rs:181-202) with
`HistoricalBatch::build_block_root_proof` (beacon_state.rs:391-404); `none` is a panic. -/
def buildRootsProof (H : Id → Id → Id) (slot : UInt64) (blockRoots stateRoots : Vector Id 8192)
    (b : Block .bellatrix) : Option RootsProof := do
  let bp ← fixed 14 (buildProof H blockRoots.toList (slot.toNat % slotsPerRoot) ++
    [containerRoot H stateRoots.toList])
  let ep ← fixed 11 (b.executionBlockHashProof H)
  some ⟨bp, b.root H, ep, slot⟩

/-- `build_capella_historical_summaries_proof` (header_with_proof.rs:207-229). -/
def buildCapellaProof (H : Id → Id → Id) (slot : UInt64) (blockRoots : Vector Id 8192)
    (b : Block .capella) : Option CapellaProof := do
  let bp ← fixed 13 (buildProof H blockRoots.toList (slot.toNat % slotsPerRoot))
  let ep ← fixed 11 (b.executionBlockHashProof H)
  some ⟨bp, b.root H, ep, slot⟩

/-- `build_deneb_historical_summaries_proof` and `build_electra_historical_summaries_proof`
(header_with_proof.rs:234-283): the same code for two block types. -/
def buildDenebProof (H : Id → Id → Id) {fork : Fork} (slot : UInt64) (blockRoots : Vector Id 8192)
    (b : Block fork) : Option DenebProof := do
  let bp ← fixed 13 (buildProof H blockRoots.toList (slot.toNat % slotsPerRoot))
  let ep ← fixed 12 (b.executionBlockHashProof H)
  some ⟨bp, b.root H, ep, slot⟩

end Verif.HeaderValidator
