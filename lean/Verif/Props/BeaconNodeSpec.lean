import Verif.Model.BeaconNode
import Verif.Props.BeaconValidatorSpec
import Verif.Props.LightNodeSpec

/-! # Specification: what a beacon node may give to others, and whom it trusts -/

namespace Verif.Props.BeaconNodes
open Verif.BeaconValue Verif.BeaconValidator Verif.BeaconNode
open Verif.LightClient (Env Client Header headerRoot)
open BeaconFormat (Belongs)
open BeaconRules (Acceptable)

/-- A node that began with an empty database and went through these events. -/
def Lives (env : Env) (given : Option Id) (tie : Nat) (es : List Ev) (s : BeaconNode.State) : Prop :=
  run env (fresh given tie BeaconStore.init) es = some s

/-- All content arrives later than 120 days after the genesis of the beacon chain. -/
def Late (es : List Ev) : Prop := ∀ key bs now, .arrived key bs now ∈ es → 864000 ≤ now

/-- What the rules may ask a light client: its finalized header, its store, the state of its finalized header. -/
def view (client : Option Client) : Oracle :=
  ⟨client.map fun c => c.store.finalized, client.map fun c => c.store, client.map fun c => c.store.finalized.stateRoot⟩

/-- The constants of mainnet, with the version of the Electra fork. -/
def mainnet : Net := ⟨0x4b363db94e286120d76eb905340fdd4e54bfe9f06bf33ff6cf5ad27f511bfe95, [5, 0, 0, 0]⟩

variable (env : Env) (given : Option Id) (tie : Nat)

/-- A peer sent this value, when the node was in this state, and by the rules of C55 it was acceptable to the light client of
that moment. -/
def AcceptedIn (es : List Ev) (s : BeaconNode.State) (key : ContentKey.Beacon) (v : Value) : Prop :=
  ∃ pre now post, es = pre ++ .arrived key (BeaconFormat.value v) now :: post ∧ Lives env given tie pre s ∧
    Belongs key v ∧ Acceptable env mainnet now (view s.client) key v

/-- The operator put this value in. -/
def Operated (es : List Ev) (key : ContentKey.Beacon) (v : Value) : Prop :=
  Belongs key v ∧ ∃ ask w, .operator ask key (BeaconFormat.value v) w ∈ es

/-- Where content may come from. -/
def Source (es : List Ev) (key : ContentKey.Beacon) (v : Value) : Prop :=
  (∃ s, AcceptedIn env given tie es s key v) ∨ Operated es key v

/-- The content fits the key that is asked for, and comes from a source: a bootstrap has this header root; the updates of a range
are, period by period, those of ranges that came for these periods; a finality update is of the last fork and finalizes this
slot or a later one; an optimistic update is signed at this slot or a later one; summaries came for this epoch or a later one. -/
def Genuine (es : List Ev) : ContentKey.Beacon → Value → Prop
  | .bootstrap root, .bootstrap v => headerRoot env.H v.2.header.beacon = root ∧
      ∃ k, Source env given tie es (.bootstrap k) (.bootstrap v)
  | .updatesByRange start count, .updates l =>
      (start.toNat + count.toNat < 2 ^ 64 → l.1.length = count.toNat) ∧
      ∀ i u, l.1[i]? = some u → ∃ start' count' l', start'.toNat ≤ start.toNat + i ∧
        l'.1[start.toNat + i - start'.toNat]? = some u ∧
        Source env given tie es (.updatesByRange start' count') (.updates l')
  | .finalityUpdate slot, .finality v => (∃ u, v = ⟨.electra, u⟩ ∧ slot ≤ u.finalized.beacon.slot) ∧
      ∃ k, Source env given tie es (.finalityUpdate k) (.finality v)
  | .optimisticUpdate slot, .optimistic v => slot ≤ v.2.signatureSlot ∧
      ∃ k, Source env given tie es (.optimisticUpdate k) (.optimistic v)
  | .historicalSummaries epoch, .summaries f x =>
      ∃ k, epoch ≤ k ∧ Source env given tie es (.historicalSummaries k) (.summaries f x)
  | _, _ => False

/-! ## The root of trust -/

/-- The root that the operator configured for the process that runs after these events. -/
def configured (given : Option Id) : List Ev → Option Id
  | [] => given
  | .restart given' _ :: es => configured given' es
  | _ :: es => configured given es

/-- A bootstrap that the node has, of which no other that it has is newer. -/
def Newest (s : BeaconNode.State) (root : Id) : Prop :=
  ∃ v, get env s (.bootstrap root) = some (BeaconFormat.value (.bootstrap v)) ∧ headerRoot env.H v.2.header.beacon = root ∧
    ∀ root' v', get env s (.bootstrap root') = some (BeaconFormat.value (.bootstrap v')) →
      v'.2.header.beacon.slot ≤ v.2.header.beacon.slot

/-- The root that comes with the program. -/
def defaultRoot : Id := 0xd8c248b779fb323c73d25e2e7c16c398d6130e52d7dd0fb344cc6bc0c7f1f308

/-! ## The chain -/

/-- The messages and bootstraps that the light client was given. -/
def messages (es : List Ev) : List LightClient.Msg :=
  es.flatMap fun e => match e with | .started _ _ _ msgs => msgs.map Prod.snd | .heard _ m => [m] | _ => []

def starts (es : List Ev) : List LightClient.Bootstrap :=
  es.filterMap fun e => match e with | .started _ _ b _ => some b | _ => none

/-- The roots that operators configured. -/
def roots (given : Option Id) (es : List Ev) : List Id :=
  given.toList ++ es.flatMap fun e => match e with | .restart g _ => g.toList | _ => []

/-- What is assumed so that trust passes from one start to the next. -/
structure Assumed (ch : Chain) (es : List Ev) : Prop where
  /-- the sync committees are honest about the messages that occur (C41) -/
  messages : ∀ m ∈ messages es, ∀ root, Honest env (LightLife.mainnetConfig root) ch m.generic
  /-- the states of headers of the chain commit to the committees of the chain, for the bootstraps that occur -/
  committees : ∀ b ∈ starts es, ch.canonical b.header →
    LightClient.currentCommitteeProofValid env b.header b.committee b.branch = true → b.committee = ch.committee (periodOf b.header)
  /-- a bootstrap with a root that was configured, or comes with the program, is on the chain -/
  roots : ∀ b ∈ starts es, headerRoot env.H b.header ∈ defaultRoot :: roots given es → ch.canonical b.header
  /-- two headers with the same root are the same, of those in bootstraps that occur -/
  binding : ∀ b ∈ starts es, ∀ k v, Source env given tie es (.bootstrap k) (.bootstrap v) →
    headerRoot env.H b.header = headerRoot env.H v.2.header.beacon → b.header = v.2.header.beacon
  /-- the operator puts in only bootstraps of the chain -/
  operator : ∀ k v, Operated es (.bootstrap k) (.bootstrap v) → ch.canonical v.2.header.beacon
  /-- as long as the light client does not run, peers send only bootstraps of the chain -/
  early : ∀ s k v, AcceptedIn env given tie es s (.bootstrap k) (.bootstrap v) → s.client = none → ch.canonical v.2.header.beacon

/-- The summaries of the state of a header of the chain (leaf 27 of the 64 of that state) are a beginning of this list. -/
def StateSummaries (H : Id → Id → Id) (truth : List BeaconValue.Summary) (h : Header) (state : Nat → Id)
    (real : SszT.BList BeaconValue.Summary 16777216) : Prop :=
  h.stateRoot = Merkle.treeRoot H 6 state ∧ state 27 = summariesRoot H real.1 ∧ real.1 <+: truth

/-- The node gives nothing for this key, and for a range nothing for any period of it. -/
def Lacks (env : Env) (s : BeaconNode.State) : ContentKey.Beacon → Prop
  | .updatesByRange start count => ∀ p : UInt64, start ≤ p → p.toNat < start.toNat + count.toNat →
      get env s (.updatesByRange p 1) = none
  | key => get env s key = none

/-- The numbers fit the database, and a bootstrap is the one of its key. -/
def Fits (env : Env) : ContentKey.Beacon → Value → Prop
  | .bootstrap root, .bootstrap v => headerRoot env.H v.2.header.beacon = root ∧ v.2.header.beacon.slot.toNat < 2 ^ 63
  | .updatesByRange start count, _ => start.toNat + count.toNat ≤ 2 ^ 63
  | .historicalSummaries epoch, _ => epoch.toNat < 2 ^ 63
  | _, _ => True

/-- No event by the operator. -/
def Unattended (es : List Ev) : Prop := ∀ ask key bs w, .operator ask key bs w ∉ es

end Verif.Props.BeaconNodes
