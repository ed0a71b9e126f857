import Verif.Props.BeaconValueSpec
import Verif.Props.LightClient
import Verif.Model.LightNode

/-! # Specification for C84: the life of a light client -/

namespace Verif.Props.LightLife
open Verif.LightClient Verif.LightNode

/-- The constants of mainnet that the client verifies with, for a trusted root. -/
def mainnetConfig (root : Id) : Config where
  checkpoint := root
  genesisRoot := 0x4b363db94e286120d76eb905340fdd4e54bfe9f06bf33ff6cf5ad27f511bfe95
  maxCheckpointAge := 1209600
  strictCheckpointAge := false
  forks := [(364032, [5, 0, 0, 0]), (269568, [4, 0, 0, 0]), (194048, [3, 0, 0, 0]), (144896, [2, 0, 0, 0]),
    (74240, [1, 0, 0, 0])]
  genesisVersion := [0, 0, 0, 0]

/-- From `c` to `d` by messages each of which was verified against the store before it. -/
inductive Reached (env : Env) (cfg : Config) (c : Client) : Client → Prop
  | refl : Reached env cfg c c
  | step {d e : Client} {m : Msg} {now : Nat} :
      Reached env cfg c d → process env cfg now d m = .ok e → Reached env cfg c e

/-- The client began at a bootstrap whose header has the root of the checkpoint and whose committee is the one the
header's state commits to, and came by verified messages to where it is. -/
def Anchored (env : Env) (cfg : Config) (c : Client) : Prop :=
  ∃ (b : Bootstrap) (prior : Client),
    headerRoot env.H b.header = cfg.checkpoint ∧
    currentCommitteeProofValid env b.header b.committee b.branch = true ∧
    Reached env cfg { prior with store := ⟨b.header, b.committee, none, b.header, 0, 0⟩ } c

variable {σ : Type}

/-- A message that the RPC answers with in some state. -/
def Given (r : Rpc σ) (m : Msg) : Prop :=
  ∃ s, (∃ p n ms, (r.updates p n s).1 = .ok ms ∧ m ∈ ms) ∨ (r.finality s).1 = .ok m ∨ (r.optimistic s).1 = .ok m

/-- The RPC does not itself say that a checkpoint is too old. -/
structure Plain (r : Rpc σ) : Prop where
  bootstrap : ∀ root s, (r.bootstrap root s).1 ≠ .error .tooOld
  updates : ∀ p n s, (r.updates p n s).1 ≠ .error .tooOld
  optimistic : ∀ s, (r.optimistic s).1 ≠ .error .tooOld

/-- What is assumed of an RPC for the client to be on the chain: the trusted root is on the chain, and each message it
gives is one that honest committees let exist. -/
structure Trusted (env : Env) (ch : Chain) (r : Rpc σ) (root : Id) : Prop where
  bootstrap : ∀ s b, (r.bootstrap root s).1 = .ok b → HonestBootstrap env (mainnetConfig root) ch b
  messages : ∀ m, Given r m → Honest env (mainnetConfig root) ch m.generic

/-- Time goes on: `time` is the time in a state, no request takes it back, and the clock shows no later one. -/
structure Steady (r : Rpc σ) (time : σ → Nat) : Prop where
  chainId : ∀ s, time s ≤ time (r.chainId s).2
  bootstrap : ∀ root s, time s ≤ time (r.bootstrap root s).2
  updates : ∀ p n s, time s ≤ time (r.updates p n s).2
  finality : ∀ s, time s ≤ time (r.finality s).2
  optimistic : ∀ s, time s ≤ time (r.optimistic s).2
  clock : ∀ s, time s ≤ time (r.clock s).2
  shown : ∀ s, (r.clock s).1 ≤ time (r.clock s).2

/-- No request ends in a panic, and it is after the genesis of the beacon chain. -/
structure Unfailing (r : Rpc σ) : Prop where
  updates : ∀ p n s, (r.updates p n s).1 ≠ .error .abort
  finality : ∀ s, (r.finality s).1 ≠ .error .abort
  optimistic : ∀ s, (r.optimistic s).1 ≠ .error .abort
  clock : ∀ s, 1606824023 ≤ (r.clock s).1

/-- The last checkpoint, if there is one, is the root of a header of the chain at the start of an epoch. -/
def GoodCheckpoint (env : Env) (ch : Chain) (c : Client) : Prop :=
  c.lastCheckpoint = none ∨
  ∃ h, ch.canonical h ∧ 32 ∣ h.slot.toNat ∧ c.lastCheckpoint = some (headerRoot env.H h)

/-- The node of the beacon network before it starts. -/
def freshNode (rpc : Rpc σ) (root : Id) : Node σ where
  settings :=
    { consensusRpc := []
      rpcPort := none
      defaultCheckpoint := 0x766647f3c4e1fc91c0db9a9374032ae038778411fbff222974e11f2e3ce7dadf
      checkpoint := some root
      dataDir := some "/tmp/portal-light-client".toList
      chainId := 1
      genesisTime := 1606824023
      genesisRoot := 0x4b363db94e286120d76eb905340fdd4e54bfe9f06bf33ff6cf5ad27f511bfe95
      forks := [(364032, [5, 0, 0, 0]), (269568, [4, 0, 0, 0]), (194048, [3, 0, 0, 0]), (144896, [2, 0, 0, 0]),
        (74240, [1, 0, 0, 0])]
      genesisVersion := [0, 0, 0, 0]
      maxCheckpointAge := 1209600
      fallback := none
      loadExternal := false
      strict := false }
  rpc := rpc
  checkpoint := root
  client := emptyClient
  threads := 0

/-- `k` starts that failed without a panic, each followed by a pause of ten seconds. -/
inductive Tries (env : Env) (web : Web σ) (n : Node σ) (s : σ) : Nat → Node σ → σ → Prop
  | none : Tries env web n s 0 n s
  | more {k : Nat} {m m' : Node σ} {t t' : σ} {f : Fail} :
      Tries env web n s k m t → m.start env web t = ((some f, m'), t') → f ≠ .abort →
      Tries env web n s (k + 1) m' (web.sleep 10 t')

/-! ## What is asked for -/

/-- The keys of a synchronisation: the bootstrap of the root, the update of each period from that of the bootstrap to
the one before the present, the finality update, and the optimistic update of the present slot. -/
def syncPlan (root : Id) (first present slot : Nat) : List ContentKey.Beacon :=
  .bootstrap root ::
    ((List.range' first (present - first)).map fun p => .updatesByRange (UInt64.ofNat p) 1) ++
    [.finalityUpdate 0, .optimisticUpdate (UInt64.ofNat slot)]

/-- The slot of mainnet at a time. -/
def mainnetSlot (time : Nat) : Nat := (time - 1606824023) / 12

/-! ## Checkpoints -/

/-- The checkpoints that come with the program. -/
def builtIn : Network → Id
  | .mainnet => 0x766647f3c4e1fc91c0db9a9374032ae038778411fbff222974e11f2e3ce7dadf
  | .sepolia => 0x234931a3fe5d791f06092477357e2d65dcf6fa6cad048680eb93ad3ea494bbcd

/-- The constants of each network: identity of the chain, time of the genesis, and what messages are verified with. -/
def constants : Network → Nat × Nat × (Id → Config)
  | .mainnet => (1, 1606824023, mainnetConfig)
  | .sepolia => (11155111, 1655733600, fun root =>
      { checkpoint := root
        genesisRoot := 0xd8ea171f3c94aea21ebc42a1ed61052acf3f9209c00e4efbaaddac09ed9b8078
        maxCheckpointAge := 1209600
        strictCheckpointAge := false
        forks := [(222464, [0x90, 0, 0, 0x74]), (132608, [0x90, 0, 0, 0x73]), (56832, [0x90, 0, 0, 0x72]), (100, [0x90, 0, 0, 0x71]),
          (50, [0x90, 0, 0, 0x70])]
        genesisVersion := [0x90, 0, 0, 0x69] })

/-- What the settings of a client consist of, from what the builder was told, the given configuration and the network. -/
structure Built (b : Builder) (st : Settings) : Prop where
  rpcPort : st.rpcPort = b.rpcPort.or (b.config.bind (·.rpcPort))
  dataDir : st.dataDir = b.dataDir.or (b.config.bind (·.dataDir))
  checkpoint : st.checkpoint = b.checkpoint.or (b.config.bind (·.checkpoint))
  fallback : st.fallback = b.fallback.or (b.config.bind (·.fallback))
  strict : st.strict = true ↔ b.strict = true ∨ ∃ c, b.config = some c ∧ c.strict = true
  loadExternal : st.loadExternal = true ↔ b.loadExternal = true ∨ ∃ c, b.config = some c ∧ c.loadExternal = true
  network : ∀ n, b.network = some n → st.chainId = (constants n).1 ∧ st.genesisTime = (constants n).2.1 ∧
    ∀ root, st.config root = { (constants n).2.2 root with strictCheckpointAge := st.strict }
  config : ∀ c, b.network = none → b.config = some c → st.chainId = c.chainId ∧ st.genesisTime = c.genesisTime ∧
    ∀ root, st.config root = { c.config root with strictCheckpointAge := st.strict }

/-- What the network found for a key is the format of this value. -/
def Found (w : Portal σ) (k : ContentKey.Beacon) (s : Asked σ) (v : BeaconValue.Value) : Prop :=
  BeaconFormat.Belongs k v ∧ (w.lookup k s.world).1 = some (BeaconFormat.value v)

/-- The message that an update is for the client. -/
def messageOf (u : BeaconValue.Update .electra) : Msg :=
  .full u.attested.beacon (BeaconValidator.bitsOf u.aggregate.bits.1) u.aggregate.signature.1 u.signatureSlot.toNat
    ⟨u.nextSyncCommittee.pubkeys.1.map (·.1), u.nextSyncCommittee.aggregatePubkey.1⟩ u.nextBranch.1 u.finalized.beacon u.finalityBranch.1

/-- A checkpoint on disk. -/
def saved : Option Bytes → Option Id
  | some bs => if bs.length = 32 then some (BitVec.ofNat 256 (fromBe bs)) else none
  | none => none

/-- Which slot an answer of a checkpoint service stands for: its first one with a root. -/
def vote : Option (List Slot) → Option (Nat × Id)
  | none => none
  | some slots => slots.findSome? fun s => s.blockRoot.map fun r => (s.epoch, r)

def votes (answers : List (Option (List Slot))) : List (Nat × Id) := answers.filterMap vote

/-- How many votes there are for a root in an epoch. -/
def support (vs : List (Nat × Id)) (epoch : Nat) (root : Id) : Nat := vs.count (epoch, root)

/-- A root is elected: it has a vote in the highest epoch of all votes, and no root has more votes there. -/
def Elected (vs : List (Nat × Id)) (root : Id) : Prop :=
  ∃ epoch, (epoch, root) ∈ vs ∧ (∀ v ∈ vs, v.1 ≤ epoch) ∧ ∀ other, support vs epoch other ≤ support vs epoch root

/-- The root comes from the service of the command line: the root of its first slot. -/
def FromFallback (web : Web σ) (n : Node σ) (root : Id) : Prop :=
  ∃ url slot rest s, n.settings.fallback = some url ∧ (web.slots (constructUrl url) s).1 = some (slot :: rest) ∧
    slot.blockRoot = some root

/-- The answers are those of the listed services that are healthy, each asked once. -/
def Answered (web : Web σ) (services : List Service) (answers : List (Option (List Slot))) : Prop :=
  answers.length = (services.filter (·.state)).length ∧
  ∀ (i : Nat) (a : Option (List Slot)), answers[i]? = some a → ∃ (v : Service) (s : σ), (services.filter (·.state))[i]? = some v ∧
    a = (web.slots (constructUrl v.endpoint) s).1

/-- The root is elected by services that are listed as healthy. -/
def FromServices (web : Web σ) (root : Id) : Prop :=
  ∃ services s answers, (web.services s).1 = some services ∧ Answered web services answers ∧
    Elected (votes answers) root

end Verif.Props.LightLife
