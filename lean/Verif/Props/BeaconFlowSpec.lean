import Verif.Props.BeaconNodeSpec
import Verif.Props.BeaconBridgeSpec
import Verif.Props.BeaconValidator

/-! # Specification: what a light client needs from the network to follow the chain -/

namespace Verif.Props.BeaconFlow
open Verif.BeaconValue Verif.SszT Verif.Merkle Verif.BeaconNode Verif.LightNode
open Verif.LightClient (Env Client Committee Header headerRoot committeeRoot signingRoot)
open BeaconRules (FinalizedBy signers)

/-- Two thirds of the committee of the period of this slot, whose keys are all in order, have signed the header, for the Electra
fork. -/
structure Attested (env : Env) (ch : Chain) (header : Header) (agg : SyncAggregate) (slot : UInt64) : Prop where
  electra : 364032 * 32 ≤ slot.toNat
  majority : TwoThirds agg
  order : header.slot < slot
  keys : ∀ k ∈ (ch.committee (slot.toNat / 8192)).pubkeys, env.keyOk k = true
  signed : env.verifySig agg.signature.1
    (signingRoot env.H BeaconNodes.mainnet.genesisRoot (headerRoot env.H header) BeaconNodes.mainnet.electraVersion)
    (signers (ch.committee (slot.toNat / 8192)) agg.bits.1) = true

def members (c : SyncCommittee) : Committee := ⟨c.pubkeys.1.map (·.1), c.aggregatePubkey.1⟩

/-- The update of a period: signed in it, with a finalized header of it and the committee of the next. -/
structure ForPeriod (env : Env) (ch : Chain) (period : Nat) (u : Update .electra) : Prop where
  attested : Attested env ch u.attested.beacon u.aggregate u.signatureSlot
  signed : u.signatureSlot.toNat / 8192 = period
  finalized : u.finalized.beacon.slot.toNat / 8192 = period
  proof : FinalizedBy env u.attested.beacon u.finalized.beacon u.finalityBranch.1
  committee : members u.nextSyncCommittee = ch.committee (period + 1)
  committee_proof : verifyMerkleProof env.H (committeeRoot env.H (members u.nextSyncCommittee)) u.nextBranch.1 6 23
    u.attested.beacon.stateRoot = true

/-- The newest finality update and optimistic update in this slot: the latter is signed in this very slot, the former in this
period. -/
structure Present (env : Env) (ch : Chain) (now : Nat) (final : FinalityUpdate .electra) (head : OptimisticUpdate .electra) : Prop where
  final_signed : Attested env ch final.attested.beacon final.aggregate final.signatureSlot
  proof : FinalizedBy env final.attested.beacon final.finalized.beacon final.finalityBranch.1
  behind : final.finalized.beacon.slot < final.attested.beacon.slot
  past : final.signatureSlot.toNat ≤ now
  period : final.signatureSlot.toNat / 8192 = now / 8192
  head_signed : Attested env ch head.attested.beacon head.aggregate head.signatureSlot
  slot : head.signatureSlot.toNat = now
  last : final.attested.beacon = head.attested.beacon ∨ final.attested.beacon.slot < head.attested.beacon.slot

/-- Everything for a start. -/
structure Course where
  boot : Bootstrap .electra
  update : Nat → Update .electra
  final : FinalityUpdate .electra
  head : OptimisticUpdate .electra

def Course.first (d : Course) : Nat := d.boot.header.beacon.slot.toNat / 8192

/-- The bootstrap has this root and the committee of its period; there is an update for each period from then to the one before
the present; the finality update finalizes a header later than all of those. -/
structure Sound (env : Env) (ch : Chain) (root : Id) (now : Nat) (d : Course) : Prop where
  root : headerRoot env.H d.boot.header.beacon = root
  committee : members d.boot.currentSyncCommittee = ch.committee d.first
  proof : verifyMerkleProof env.H (committeeRoot env.H (members d.boot.currentSyncCommittee)) d.boot.branch.1 6 22
    d.boot.header.beacon.stateRoot = true
  updates : ∀ p, d.first ≤ p → p < now / 8192 → ForPeriod env ch p (d.update p)
  present : Present env ch now d.final d.head
  newer : d.boot.header.beacon.slot < d.final.finalized.beacon.slot
  newer_updates : ∀ p, d.first ≤ p → p < now / 8192 → (d.update p).finalized.beacon.slot < d.final.finalized.beacon.slot ∧
    (d.update p).attested.beacon.slot < d.head.attested.beacon.slot

/-- A node gives these under the keys that light clients ask for. -/
structure Gives (env : Env) (node : BeaconNode.State) (now : Nat) (final : FinalityUpdate .electra) (head : OptimisticUpdate .electra) :
    Prop where
  final : get env node (.finalityUpdate 0) = some (BeaconFormat.value (.finality ⟨.electra, final⟩))
  head : get env node (.optimisticUpdate (UInt64.ofNat now)) = some (BeaconFormat.value (.optimistic ⟨.electra, head⟩))

def one (u : Update .electra) : Value := .updates ⟨[⟨.electra, u⟩], Nat.le_of_ble_eq_true rfl⟩

structure GivesAll (env : Env) (node : BeaconNode.State) (root : Id) (now : Nat) (d : Course) : Prop where
  boot : get env node (.bootstrap root) = some (BeaconFormat.value (.bootstrap ⟨.electra, d.boot⟩))
  updates : ∀ p, d.first ≤ p → p < now / 8192 →
    get env node (.updatesByRange (UInt64.ofNat p) 1) = some (BeaconFormat.value (one (d.update p)))
  present : Gives env node now d.final d.head

variable {σ : Type}

/-- The lookups of the light client find what this node gives. -/
def Finds (env : Env) (w : Portal σ) (node : BeaconNode.State) : Prop :=
  ∀ key bs, get env node key = some bs → ∀ t, (w.lookup key t).1 = some bs

/-- It is this slot. -/
def InSlot (w : Portal σ) (now : Nat) : Prop := ∀ t, 1606824023 ≤ (w.clock t).1 ∧ ((w.clock t).1 - 1606824023) / 12 = now

/-- The client is at most one period behind, and knows the committees it needs. -/
structure Tracks (ch : Chain) (now : Nat) (c : Client) : Prop where
  current : c.store.current = ch.committee (periodOf c.store.finalized)
  next : ∀ n, c.store.next = some n → n = ch.committee (periodOf c.store.finalized + 1)
  near : now / 8192 = periodOf c.store.finalized ∨ (now / 8192 = periodOf c.store.finalized + 1 ∧ c.store.next ≠ none)
  counts : c.store.currentMax ≤ 512 ∧ c.store.previousMax ≤ 512

/-- The client knows the committees of the period of its finalized header and of the next. -/
structure Keeps (ch : Chain) (c : Client) : Prop where
  current : c.store.current = ch.committee (periodOf c.store.finalized)
  next : c.store.next = some (ch.committee (periodOf c.store.finalized + 1))
  counts : c.store.currentMax ≤ 512 ∧ c.store.previousMax ≤ 512

/-- What one turn of the thread meets: a slot, a node whose content its lookups find, and what that node gives. -/
structure Turn (σ : Type) where
  now : Nat
  world : Portal σ
  state : Asked σ
  node : BeaconNode.State
  final : FinalityUpdate .electra
  head : OptimisticUpdate .electra
  update : Update .electra

/-- The turn comes when the last finalized header was this one: what the network has is newer, and there is the update of the
period of the newly finalized header. -/
structure Meets (env : Env) (ch : Chain) (finalized optimistic : Header) (t : Turn σ) : Prop where
  present : Present env ch t.now t.final t.head
  gives : Gives env t.node t.now t.final t.head
  finds : Finds env t.world t.node
  slot : InSlot t.world t.now
  newer : t.final.finalized.beacon = finalized ∨ finalized.slot < t.final.finalized.beacon.slot
  newer_head : optimistic.slot < t.head.attested.beacon.slot
  update : ForPeriod env ch (periodOf t.final.finalized.beacon) t.update
  given : get env t.node (.updatesByRange (UInt64.ofNat (periodOf t.final.finalized.beacon)) 1) =
    some (BeaconFormat.value (one t.update))
  past : t.update.signatureSlot.toNat ≤ t.now
  older : t.update.finalized.beacon.slot ≤ t.final.finalized.beacon.slot
  older_head : t.update.attested.beacon.slot ≤ t.head.attested.beacon.slot

/-- A sequence of turns, each in the period of the header finalized before it or in the next. -/
def Sequence (env : Env) (ch : Chain) (finalized optimistic : Header) : List (Turn σ) → Prop
  | [] => True
  | t :: ts => Meets env ch finalized optimistic t ∧
      (t.now / 8192 = periodOf finalized ∨ t.now / 8192 = periodOf finalized + 1) ∧
      Sequence env ch t.final.finalized.beacon t.head.attested.beacon ts

/-- The client after turns. -/
def after (env : Env) (root : Id) : Client → List (Turn σ) → Client
  | c, [] => c
  | c, t :: ts => after env root (advance env (LightLife.mainnetConfig root) (portalRpc t.world) c t.state).1.1 ts

end Verif.Props.BeaconFlow
