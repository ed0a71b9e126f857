import Verif.Props.BeaconValueSpec
import Verif.Model.BeaconValidator

/-! # What the beacon validator is meant to accept

Periods are 8192 slots. The hash, the key check and the signature check are those of `LightClient.Env`. -/

namespace Verif.Props.BeaconRules
open Verif.BeaconValue Verif.SszT Verif.BeaconValidator Verif.Merkle
open Verif.LightClient (Env Committee Store Header headerRoot committeeRoot signingRoot)

/-- Bit `i` of a bit vector: bit `i % 8` of byte `i / 8`, lowest first. -/
def bit (bs : Bytes) (i : Nat) : Bool := (bs.getD (i / 8) 0).toNat.testBit (i % 8)

/-- The members of the committee whose bit is set, in order. -/
def signers (c : Committee) (bits : Bytes) : List Bytes :=
  (c.pubkeys.zipIdx.filter fun p => bit bits p.2).map (·.1)

/-- The attested header is signed by at least one member, and all participating members, of the committee
that the trusted store knows for the period of the signature, with the Electra fork version; it is older
than the signature, which is not in the future. -/
structure Signed (env : Env) (net : Net) (now : Nat) (s : Store) (attested : Header) (agg : SyncAggregate)
    (slot : UInt64) : Prop where
  some_signer : ∃ i < 512, bit agg.bits.1 i = true
  order : attested.slot < slot
  past : slot.toNat ≤ now
  signed : ∃ c : Committee,
    ((slot.toNat / 8192 = s.finalized.slot.toNat / 8192 ∧ c = s.current) ∨
      (slot.toNat / 8192 = s.finalized.slot.toNat / 8192 + 1 ∧ s.next = some c)) ∧
    (∀ k ∈ signers c agg.bits.1, env.keyOk k = true) ∧
    env.verifySig agg.signature.1 (signingRoot env.H net.genesisRoot (headerRoot env.H attested) net.electraVersion)
      (signers c agg.bits.1) = true

/-- `finalized` is not newer than the attested header and is proved to be the finalized header in its state
(leaf 41 of 128). -/
structure FinalizedBy (env : Env) (attested finalized : Header) (branch : List Id) : Prop where
  order : finalized.slot ≤ attested.slot
  proof : verifyMerkleProof env.H (headerRoot env.H finalized) branch 7 41 attested.stateRoot = true

/-- An update of a range: signed, its finalized header and next committee (leaf 23 of 64) proved; newer than
the trusted finalized header, unless it brings the missing committee of that header's period. -/
structure UpdateOk (env : Env) (net : Net) (now : Nat) (s : Store) (u : Update .electra) : Prop where
  signed : Signed env net now s u.attested.beacon u.aggregate u.signatureSlot
  finalized : FinalizedBy env u.attested.beacon u.finalized.beacon u.finalityBranch.1
  committee : verifyMerkleProof env.H
    (committeeRoot env.H ⟨u.nextSyncCommittee.pubkeys.1.map (·.1), u.nextSyncCommittee.aggregatePubkey.1⟩)
    u.nextBranch.1 6 23 u.attested.beacon.stateRoot = true
  relevant : s.finalized.slot < u.attested.beacon.slot ∨
    (s.next = none ∧ u.attested.beacon.slot.toNat / 8192 = s.finalized.slot.toNat / 8192)

structure FinalityOk (env : Env) (net : Net) (now : Nat) (s : Store) (u : FinalityUpdate .electra) : Prop where
  signed : Signed env net now s u.attested.beacon u.aggregate u.signatureSlot
  finalized : FinalizedBy env u.attested.beacon u.finalized.beacon u.finalityBranch.1
  newer : s.finalized.slot < u.attested.beacon.slot

structure OptimisticOk (env : Env) (net : Net) (now : Nat) (s : Store) (u : OptimisticUpdate .electra) :
    Prop where
  signed : Signed env net now s u.attested.beacon u.aggregate u.signatureSlot
  newer : s.finalized.slot < u.attested.beacon.slot

/-- The rules, per key and decoded value. The clauses about what the light client knows bind only if it
answers. 864000 slots are 120 days. -/
def Acceptable (env : Env) (net : Net) (now : Nat) (oracle : Oracle) : ContentKey.Beacon → Value → Prop
  | .bootstrap _, .bootstrap v =>
    now ≤ v.2.header.beacon.slot.toNat + 864000 ∧
    ∀ h, oracle.finalizedHeader = some h → v.2.header.beacon = h
  | .updatesByRange _ count, .updates l =>
    l.1.length = count.toNat ∧
    ∀ s, oracle.store = some s → ∀ v ∈ l.1, ∃ u, v = ⟨.electra, u⟩ ∧ UpdateOk env net now s u
  | .finalityUpdate slot, .finality v =>
    ∃ u, v = ⟨.electra, u⟩ ∧ slot ≤ u.finalized.beacon.slot ∧
      ∀ s, oracle.store = some s → FinalityOk env net now s u
  | .optimisticUpdate slot, .optimistic v =>
    ∃ u, v = ⟨.electra, u⟩ ∧ u.signatureSlot = slot ∧
      ∀ s, oracle.store = some s → OptimisticOk env net now s u
  | .historicalSummaries epoch, .summaries _ x =>
    x.epoch = epoch ∧
    ∀ root, oracle.stateRoot = some root →
      verifyMerkleProof env.H (summariesRoot env.H x.summaries.1) x.proof.1 6 27 root = true
  | _, _ => False

end Verif.Props.BeaconRules
