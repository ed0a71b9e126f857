import Verif.Model.LightClient
import Verif.Model.BeaconValidator

/-! # The life of a light client: configuration, start, fallbacks, checkpoints on disk

`crates/light-client/src/{client,node,database}.rs`, `crates/light-client/src/config/{networks,base,client_config,
checkpoints}.rs`, `crates/light-client/src/consensus/rpc/portal_rpc.rs`, the parts of `consensus_client.rs` that ask the
RPC and read the clock (the rest is `Model/LightClient`), and `crates/subnetworks/beacon/src/sync.rs`. What is outside
(the network, the clock, checkpoint services) has a state `σ`. Logging, the JSON-RPC server of the client and the
configuration from files (`Config::from_file`) are left out. Times are seconds since 1970. -/

namespace Verif.LightNode
open Verif.LightClient (Env Client Msg Bootstrap)
open Verif.BeaconValue (Value)

/-! ## Configuration -/

/-- `BaseConfig` (config/base.rs) with `ChainConfig` and `Forks` (config/types.rs); `forks` has epoch and version of
electra, deneb, capella, bellatrix, altair. -/
structure Base where
  rpcPort : Nat
  consensusRpc : Option (List Char)
  defaultCheckpoint : Id
  chainId : Nat
  genesisTime : Nat
  genesisRoot : Id
  forks : List (Nat × Bytes)
  genesisVersion : Bytes
  maxCheckpointAge : Nat

/-- `mainnet` (config/networks.rs:33-77). -/
def mainnet : Base where
  rpcPort := 8545
  consensusRpc := some "https://www.lightclientdata.org".toList
  defaultCheckpoint := 0x766647f3c4e1fc91c0db9a9374032ae038778411fbff222974e11f2e3ce7dadf
  chainId := 1
  genesisTime := 1606824023
  genesisRoot := 0x4b363db94e286120d76eb905340fdd4e54bfe9f06bf33ff6cf5ad27f511bfe95
  forks := [(364032, [5, 0, 0, 0]), (269568, [4, 0, 0, 0]), (194048, [3, 0, 0, 0]), (144896, [2, 0, 0, 0]),
    (74240, [1, 0, 0, 0])]
  genesisVersion := [0, 0, 0, 0]
  maxCheckpointAge := 1209600

/-- `sepolia` (config/networks.rs:79-123). -/
def sepolia : Base where
  rpcPort := 8545
  consensusRpc := none
  defaultCheckpoint := 0x234931a3fe5d791f06092477357e2d65dcf6fa6cad048680eb93ad3ea494bbcd
  chainId := 11155111
  genesisTime := 1655733600
  genesisRoot := 0xd8ea171f3c94aea21ebc42a1ed61052acf3f9209c00e4efbaaddac09ed9b8078
  forks := [(222464, [0x90, 0, 0, 0x74]), (132608, [0x90, 0, 0, 0x73]), (56832, [0x90, 0, 0, 0x72]),
    (100, [0x90, 0, 0, 0x71]), (50, [0x90, 0, 0, 0x70])]
  genesisVersion := [0x90, 0, 0, 0x69]
  maxCheckpointAge := 1209600

/-- `Network` (config/networks.rs:19-31). -/
inductive Network where
  | mainnet
  | sepolia
deriving DecidableEq

def Network.base : Network → Base
  | .mainnet => LightNode.mainnet
  | .sepolia => LightNode.sepolia

/-- `Config` (config/client_config.rs:14-27). -/
structure Settings where
  consensusRpc : List Char
  rpcPort : Option Nat
  defaultCheckpoint : Id
  checkpoint : Option Id
  dataDir : Option (List Char)
  chainId : Nat
  genesisTime : Nat
  genesisRoot : Id
  forks : List (Nat × Bytes)
  genesisVersion : Bytes
  maxCheckpointAge : Nat
  fallback : Option (List Char)
  loadExternal : Bool
  strict : Bool

/-- `to_base_config` (client_config.rs:83-92). -/
def Settings.base (s : Settings) : Base :=
  ⟨s.rpcPort.getD 8545, some s.consensusRpc, s.defaultCheckpoint, s.chainId, s.genesisTime, s.genesisRoot, s.forks,
    s.genesisVersion, s.maxCheckpointAge⟩

/-- `ClientBuilder` (client.rs:25-35). -/
structure Builder where
  network : Option Network := none
  consensusRpc : Option (List Char) := none
  checkpoint : Option Id := none
  rpcPort : Option Nat := none
  dataDir : Option (List Char) := none
  config : Option Settings := none
  fallback : Option (List Char) := none
  loadExternal : Bool := false
  strict : Bool := false

/-- Why something did not succeed: the checkpoint is too old, another error, or a panic. -/
inductive Fail where
  | tooOld
  | other
  | abort
deriving DecidableEq, Repr

/-- The part that `build` and `build_with_rpc` share (client.rs:89-170, 178-248). -/
def Builder.settings (b : Builder) (base : Base) (consensusRpc : List Char) : Settings where
  consensusRpc := consensusRpc
  rpcPort := if b.rpcPort.isSome then b.rpcPort else b.config.bind (·.rpcPort)
  defaultCheckpoint :=
    match b.config with
    | some c => c.defaultCheckpoint
    | none => base.defaultCheckpoint
  checkpoint :=
    match b.checkpoint with
    | some c => some c
    | none => b.config.bind (·.checkpoint)
  dataDir := if b.dataDir.isSome then b.dataDir else b.config.bind (·.dataDir)
  chainId := base.chainId
  genesisTime := base.genesisTime
  genesisRoot := base.genesisRoot
  forks := base.forks
  genesisVersion := base.genesisVersion
  maxCheckpointAge := base.maxCheckpointAge
  fallback := if b.fallback.isSome then b.fallback else b.config.bind (·.fallback)
  loadExternal := b.loadExternal || (b.config.map (·.loadExternal)).getD false
  strict := b.strict || (b.config.map (·.strict)).getD false

/-- client.rs:89-97, 178-186. -/
def Builder.base (b : Builder) : Except Fail Base :=
  match b.network with
  | some n => .ok n.base
  | none =>
    match b.config with
    | some c => .ok c.base
    | none => .error .other

/-- `ClientBuilder::build` up to `Client::new` (client.rs:88-172). -/
def Builder.build (b : Builder) : Except Fail Settings :=
  match b.base with
  | .error f => .error f
  | .ok base =>
    match b.consensusRpc, b.config with
    | some url, _ => .ok (b.settings base url)
    | none, some c => .ok (b.settings base c.consensusRpc)
    | none, none => .error .abort

/-- `ClientBuilder::build_with_rpc` up to `Client::with_portal` (client.rs:174-253). -/
def Builder.buildWithRpc (b : Builder) : Except Fail Settings :=
  match b.base with
  | .error f => .error f
  | .ok base => .ok (b.settings base [])

/-- The configuration of the consensus client (`Config::fork_version` and what `bootstrap` and `verify_*` read). -/
def Settings.config (s : Settings) (checkpoint : Id) : LightClient.Config :=
  ⟨checkpoint, s.genesisRoot, s.maxCheckpointAge, s.strict, s.forks, s.genesisVersion⟩

/-! ## The checkpoint on disk -/

/-- `FileDB::load_checkpoint` (database.rs:42-47): `file` are the bytes of `checkpoint` in the data directory. -/
def loadCheckpoint (default : Id) (file : Option Bytes) : Id :=
  match file with
  | none => default
  | some bs => if bs.length = 32 then BitVec.ofNat 256 (fromBe bs) else default

/-- `FileDB::save_checkpoint` (database.rs:36-40), when writing does not fail. -/
def saveCheckpoint (checkpoint : Id) : Option Bytes := some (Id.bytes checkpoint)

/-- `Client::new` and `with_portal` with `FileDB` up to the node (client.rs:266-271, 288-293, database.rs:23-33): the
checkpoint of the node. -/
def openDb (s : Settings) (file : Option Bytes) : Except Fail Id :=
  match s.dataDir with
  | none => .error .other
  | some _ => .ok (s.checkpoint.getD (loadCheckpoint s.defaultCheckpoint file))

/-- The same with `ConfigDB` (database.rs:50-67). -/
def openConfigDb (s : Settings) : Id := s.checkpoint.getD (s.checkpoint.getD s.defaultCheckpoint)

/-- `shutdown` (client.rs:418-431) with `FileDB`: the file afterwards. -/
def shutdown (c : Client) (file : Option Bytes) : Option Bytes :=
  match c.lastCheckpoint with
  | none => file
  | some checkpoint => saveCheckpoint checkpoint

/-! ## Asking an RPC -/

/-- `ConsensusRpc`, with the clock. -/
structure Rpc (σ : Type) where
  portal : Bool
  chainId : σ → Option Nat × σ
  bootstrap : Id → σ → Except Fail Bootstrap × σ
  updates : UInt64 → UInt64 → σ → Except Fail (List Msg) × σ
  finality : σ → Except Fail Msg × σ
  optimistic : σ → Except Fail Msg × σ
  clock : σ → Nat × σ

variable {σ : Type}

/-- `BEACON_GENESIS_TIME` (portal_rpc.rs:29). -/
def beaconGenesis : Nat := 1606824023

/-- The slot of a time; `None` is the panic of the subtraction of durations. -/
def slotAt (genesis now : Nat) : Option Nat := if now < genesis then none else some ((now - genesis) / 12)

/-- `expected_current_slot` (portal_rpc.rs:193-199, and consensus_client.rs:482-490 with the genesis time of the
configuration). -/
def slotNow (genesis : Nat) (r : Rpc σ) (s : σ) : Option Nat × σ := ((slotAt genesis (r.clock s).1), (r.clock s).2)

def failOf : LightClient.Err → Fail
  | .checkpointTooOld => .tooOld
  | .panic => .abort
  | _ => .other

/-- The result of a step: the client afterwards, and why it failed if it did. -/
abbrev Result := Client × Option Fail

/-- `verify_*` and `apply_*` (consensus_client.rs:258-291): the slot is the one of mainnet, whatever the configuration. -/
def processNow (env : Env) (cfg : LightClient.Config) (r : Rpc σ) (c : Client) (m : Msg) (s : σ) : Result × σ :=
  let t := slotNow beaconGenesis r s
  match t.1 with
  | none => ((c, some .abort), t.2)
  | some now =>
    match LightClient.process env cfg now c m with
    | .error e => ((c, some (failOf e)), t.2)
    | .ok c' => ((c', none), t.2)

/-- consensus_client.rs:146-149. -/
def processList (env : Env) (cfg : LightClient.Config) (r : Rpc σ) : Client → List Msg → σ → Result × σ
  | c, [], s => ((c, none), s)
  | c, m :: ms, s =>
    let t := processNow env cfg r c m s
    match t.1.2 with
    | some f => ((t.1.1, some f), t.2)
    | none => processList env cfg r t.1.1 ms t.2

/-- The updates of each period, one request after the other (consensus_client.rs:132-135). -/
def collect (r : Rpc σ) : List Nat → σ → Except Fail (List Msg) × σ
  | [], s => (.ok [], s)
  | p :: ps, s =>
    let t := r.updates (UInt64.ofNat p) 1 s
    match t.1 with
    | .error f => (.error f, t.2)
    | .ok ms =>
      let u := collect r ps t.2
      match u.1 with
      | .error f => (.error f, u.2)
      | .ok rest => (.ok (ms ++ rest), u.2)

/-- The updates of a synchronisation (consensus_client.rs:121-144); `MAX_REQUEST_LIGHT_CLIENT_UPDATES` is 128. -/
def fetchUpdates (r : Rpc σ) (first : Nat) (s : σ) : Except Fail (List Msg) × σ :=
  if r.portal then
    let t := slotNow beaconGenesis r s
    match t.1 with
    | none => (.error .abort, t.2)
    | some now => collect r (List.range' first (LightClient.syncPeriod now - first)) t.2
  else r.updates (UInt64.ofNat first) 128 s

/-- consensus_client.rs:151-156, 174-182: a finality update that cannot be had is passed over. -/
def latestFinality (env : Env) (cfg : LightClient.Config) (r : Rpc σ) (c : Client) (s : σ) : Result × σ :=
  let f := r.finality s
  match f.1 with
  | .ok m => processNow env cfg r c m f.2
  | .error .abort => ((c, some .abort), f.2)
  | .error _ => ((c, none), f.2)

/-- consensus_client.rs:158-163, 184-190. -/
def latestOptimistic (env : Env) (cfg : LightClient.Config) (r : Rpc σ) (c : Client) (s : σ) : Result × σ :=
  let o := r.optimistic s
  match o.1 with
  | .error e => ((c, some e), o.2)
  | .ok m => processNow env cfg r c m o.2

/-- consensus_client.rs:151-163, 174-190. -/
def latest (env : Env) (cfg : LightClient.Config) (r : Rpc σ) (c : Client) (s : σ) : Result × σ :=
  let t := latestFinality env cfg r c s
  match t.1.2 with
  | some e => ((t.1.1, some e), t.2)
  | none => latestOptimistic env cfg r t.1.1 t.2

/-- `sync` from its bootstrap on (consensus_client.rs:121-171). -/
def syncFrom (env : Env) (cfg : LightClient.Config) (r : Rpc σ) (c : Client) (s : σ) : Result × σ :=
  let u := fetchUpdates r (LightClient.syncPeriod c.store.finalized.slot.toNat) s
  match u.1 with
  | .error f => ((c, some f), u.2)
  | .ok ms =>
    let p := processList env cfg r c ms u.2
    match p.1.2 with
    | some f => ((p.1.1, some f), p.2)
    | none => latest env cfg r p.1.1 p.2

/-- `sync` (consensus_client.rs:118-171). -/
def sync (env : Env) (cfg : LightClient.Config) (genesis : Nat) (r : Rpc σ) (c : Client) (s : σ) : Result × σ :=
  let b := r.bootstrap cfg.checkpoint s
  match b.1 with
  | .error f => ((c, some f), b.2)
  | .ok boot =>
    let t := slotNow genesis r b.2
    match t.1 with
    | none => ((c, some .abort), t.2)
    | some now =>
      match LightClient.bootstrap env cfg now c boot with
      | .error e => ((c, some (failOf e)), t.2)
      | .ok c => syncFrom env cfg r c t.2

/-- `advance` (consensus_client.rs:173-209): an update of the sync committee that is refused is passed over. -/
def advance (env : Env) (cfg : LightClient.Config) (r : Rpc σ) (c : Client) (s : σ) : Result × σ :=
  let l := latest env cfg r c s
  match l.1.2 with
  | some f => ((l.1.1, some f), l.2)
  | none =>
    if l.1.1.store.next.isNone then
      let u := r.updates (UInt64.ofNat (LightClient.syncPeriod l.1.1.store.finalized.slot.toNat)) 1 l.2
      match u.1 with
      | .error f => ((l.1.1, some f), u.2)
      | .ok [m] =>
        let t := processNow env cfg r l.1.1 m u.2
        match t.1.2 with
        | some .abort => t
        | _ => ((t.1.1, none), t.2)
      | .ok _ => ((l.1.1, none), u.2)
    else l

/-! ## The portal network as RPC -/

/-- The overlay of the beacon network: `lookup` is `FindContentQuery` (an error, or a closed channel, is `none`). -/
structure Portal (σ : Type) where
  lookup : ContentKey.Beacon → σ → Option Bytes × σ
  clock : σ → Nat × σ

/-- The state with what was asked for and the times that were read. -/
structure Asked (σ : Type) where
  world : σ
  asked : List ContentKey.Beacon
  read : List Nat

/-- `send_find_content` (portal_rpc.rs:41-80). -/
def Portal.find (w : Portal σ) (k : ContentKey.Beacon) (s : Asked σ) : Except Fail Value × Asked σ :=
  let r := w.lookup k s.world
  let s : Asked σ := ⟨r.2, s.asked ++ [k], s.read⟩
  match r.1 with
  | none => (.error .other, s)
  | some bs =>
    match Value.decode k bs with
    | .ok v => (.ok v, s)
    | .error .malformed => (.error .other, s)
    | .error .abort => (.error .abort, s)

/-- The Electra types as messages of the client. -/
def bootstrapOf (b : BeaconValue.Bootstrap .electra) : Bootstrap :=
  ⟨b.header.beacon, BeaconValidator.committeeOf b.currentSyncCommittee, b.branch.1⟩
def updateOf (u : BeaconValue.Update .electra) : Msg :=
  .full u.attested.beacon (BeaconValidator.bitsOf u.aggregate.bits.1) u.aggregate.signature.1 u.signatureSlot.toNat
    (BeaconValidator.committeeOf u.nextSyncCommittee) u.nextBranch.1 u.finalized.beacon u.finalityBranch.1
def finalityOf (u : BeaconValue.FinalityUpdate .electra) : Msg :=
  .finality u.attested.beacon (BeaconValidator.bitsOf u.aggregate.bits.1) u.aggregate.signature.1 u.signatureSlot.toNat
    u.finalized.beacon u.finalityBranch.1
def optimisticOf (u : BeaconValue.OptimisticUpdate .electra) : Msg :=
  .optimistic u.attested.beacon (BeaconValidator.bitsOf u.aggregate.bits.1) u.aggregate.signature.1 u.signatureSlot.toNat

/-- portal_rpc.rs:98-104. -/
def asBootstrap : Value → Option Bootstrap
  | .bootstrap ⟨.electra, b⟩ => some (bootstrapOf b)
  | _ => none

/-- portal_rpc.rs:123-136: one update of another fork refuses all. -/
def electraUpdates : List (BeaconValue.Versioned BeaconValue.Update) → Option (List Msg)
  | [] => some []
  | ⟨.electra, u⟩ :: us => (electraUpdates us).map (updateOf u :: ·)
  | _ :: _ => none

def asUpdates : Value → Option (List Msg)
  | .updates l => electraUpdates l.1
  | _ => none

/-- portal_rpc.rs:151-157. -/
def asFinality : Value → Option Msg
  | .finality ⟨.electra, u⟩ => some (finalityOf u)
  | _ => none

/-- portal_rpc.rs:171-181. -/
def asOptimistic : Value → Option Msg
  | .optimistic ⟨.electra, u⟩ => some (optimisticOf u)
  | _ => none

def readAs {α : Type} (of : Value → Option α) : Except Fail Value → Except Fail α
  | .error f => .error f
  | .ok v =>
    match of v with
    | some x => .ok x
    | none => .error .other

def Portal.tick (w : Portal σ) (s : Asked σ) : Nat × Asked σ :=
  ((w.clock s.world).1, ⟨(w.clock s.world).2, s.asked, s.read ++ [(w.clock s.world).1]⟩)

/-- `PortalRpc` (portal_rpc.rs:83-189). -/
def portalRpc (w : Portal σ) : Rpc (Asked σ) where
  portal := true
  chainId s := (some 1, s)
  bootstrap root s := let r := w.find (.bootstrap root) s; (readAs asBootstrap r.1, r.2)
  updates period count s := let r := w.find (.updatesByRange period count) s; (readAs asUpdates r.1, r.2)
  finality s := let r := w.find (.finalityUpdate 0) s; (readAs asFinality r.1, r.2)
  optimistic s :=
    let t := w.tick s
    match slotAt beaconGenesis t.1 with
    | none => (.error .abort, t.2)
    | some now => let r := w.find (.optimisticUpdate (UInt64.ofNat now)) t.2; (readAs asOptimistic r.1, r.2)
  clock := w.tick

/-! ## Checkpoint services -/

/-- `Slot` (config/checkpoints.rs:26-35), as far as it is read. -/
structure Slot where
  slot : Nat
  blockRoot : Option Id
  epoch : Nat
deriving DecidableEq, Repr

/-- `CheckpointFallbackService` (config/checkpoints.rs:55-72), as far as it is read. -/
structure Service where
  endpoint : List Char
  state : Bool
  verification : Bool
deriving DecidableEq, Repr

/-- `construct_url` (config/checkpoints.rs:230-234). -/
def constructUrl (endpoint : List Char) : List Char :=
  (endpoint.reverse.dropWhile (· == '/')).reverse ++ "/checkpointz/v1/beacon/slots".toList

/-- What the client reaches besides its RPC: the port of its server, checkpoint services (`slots`: the parsed answer of a
URL; `services`: the list of the services of mainnet), the iteration order of a hash map, and sleep. `renew` is
`R::new` with the URL of the configuration, `None` where it panics (portal_rpc.rs:84-86). -/
structure Web (σ : Type) where
  serve : σ → Bool × σ
  slots : List Char → σ → Option (List Slot) × σ
  services : σ → Option (List Service) × σ
  order : List (Id × Nat) → List (Id × Nat)
  sleep : Nat → σ → σ
  renew : Option (Rpc σ)

/-- The slot a service stands for (config/checkpoints.rs:148-163). -/
def serviceSlot (answer : Option (List Slot)) : Option Slot :=
  match answer with
  | none => none
  | some slots => slots.find? fun s => s.blockRoot.isSome

/-- All services are asked (config/checkpoints.rs:141-176); the answers are in the order of the services. -/
def askServices (web : Web σ) : List Service → σ → List (Option (List Slot)) × σ
  | [], s => ([], s)
  | v :: vs, s =>
    let a := web.slots (constructUrl v.endpoint) s
    let r := askServices web vs a.2
    (a.1 :: r.1, r.2)

/-- `max_by_key`: the last of the largest. -/
def maxBy {α : Type} (key : α → Nat) : List α → Option α
  | [] => none
  | x :: xs =>
    match maxBy key xs with
    | none => some x
    | some y => if key x > key y then some x else some y

/-- How often each root occurs (config/checkpoints.rs:195-199). -/
def tally : List Id → List (Id × Nat)
  | [] => []
  | r :: rs => (r, (r :: rs).count r) :: (tally rs).filter fun e => e.1 ≠ r

/-- The rest of `fetch_latest_checkpoint_from_services` (config/checkpoints.rs:178-203). -/
def pickCheckpoint (order : List (Id × Nat) → List (Id × Nat)) (answers : List (Option (List Slot))) : Option Id :=
  let slots := answers.filterMap serviceSlot
  match maxBy Slot.epoch slots with
  | none => none
  | some top =>
    (maxBy Prod.snd (order (tally ((slots.filter fun s => s.epoch == top.epoch).filterMap Slot.blockRoot)))).map Prod.fst

/-- `build` and `fetch_latest_checkpoint` (config/checkpoints.rs:95-128, 270-279). -/
def fetchLatest (web : Web σ) (s : σ) : Except Fail Id × σ :=
  let l := web.services s
  match l.1 with
  | none => (.error .other, l.2)
  | some services =>
    let a := askServices web (services.filter (·.state)) l.2
    match pickCheckpoint web.order a.1 with
    | none => (.error .other, a.2)
    | some root => (.ok root, a.2)

/-- `fetch_checkpoint_from_api` (config/checkpoints.rs:207-215): `slots[0]` panics on an empty list. -/
def fetchFromApi (web : Web σ) (url : List Char) (s : σ) : Except Fail Id × σ :=
  let a := web.slots (constructUrl url) s
  match a.1 with
  | none => (.error .other, a.2)
  | some [] => (.error .abort, a.2)
  | some (slot :: _) =>
    match slot.blockRoot with
    | none => (.error .other, a.2)
    | some root => (.ok root, a.2)

/-! ## The node and its start -/

/-- `LightClientStore::default` in a new consensus client (consensus_client.rs:47-75). -/
def emptyClient : Client :=
  let h : LightClient.Header := ⟨0, 0, 0, 0, 0⟩
  let c : LightClient.Committee := ⟨List.replicate 512 (List.replicate 48 0), List.replicate 48 0⟩
  ⟨⟨h, c, none, h, 0, 0⟩, none, none, none, none⟩

/-- `Client` and `Node` (client.rs:256-263, node.rs:19-22); `threads` counts the calls of `start_advance_thread`. -/
structure Node (σ : Type) where
  settings : Settings
  rpc : Rpc σ
  checkpoint : Id
  client : Client
  threads : Nat

/-- `Node::new`, `Node::with_portal`. -/
def newNode (settings : Settings) (rpc : Rpc σ) (checkpoint : Id) : Node σ := ⟨settings, rpc, checkpoint, emptyClient, 0⟩

/-- `Node::sync` (node.rs:54-64) with `check_rpc` (consensus_client.rs:77-85). -/
def Node.sync (env : Env) (n : Node σ) (s : σ) : (Option Fail × Node σ) × σ :=
  let i := n.rpc.chainId s
  match i.1 with
  | none => ((some .other, n), i.2)
  | some id =>
    if id ≠ n.settings.chainId then ((some .other, n), i.2)
    else
      let r := LightNode.sync env (n.settings.config n.checkpoint) n.settings.genesisTime n.rpc n.client i.2
      ((r.1.2, { n with client := r.1.1 }), r.2)

/-- client.rs:377-384, 409-414: the consensus client is built anew with this checkpoint, and synchronised. -/
def Node.resync (env : Env) (web : Web σ) (n : Node σ) (root : Id) (s : σ) : (Option Fail × Node σ) × σ :=
  match web.renew with
  | none => ((some .abort, n), s)
  | some rpc => ({ n with rpc, checkpoint := root, client := emptyClient } : Node σ).sync env s

/-- `boot_from_fallback` (client.rs:365-389). -/
def Node.bootFromFallback (env : Env) (web : Web σ) (n : Node σ) (s : σ) : (Option Fail × Node σ) × σ :=
  match n.settings.fallback with
  | none => ((some .other, n), s)
  | some url =>
    let a := fetchFromApi web url s
    match a.1 with
    | .error f => ((some f, n), a.2)
    | .ok root => n.resync env web root a.2

/-- `boot_from_external_fallbacks` (client.rs:391-416). -/
def Node.bootFromExternal (env : Env) (web : Web σ) (n : Node σ) (s : σ) : (Option Fail × Node σ) × σ :=
  let a := fetchLatest web s
  match a.1 with
  | .error f => ((some f, n), a.2)
  | .ok root => n.resync env web root a.2

/-- `start_advance_thread` (client.rs:344, 349). -/
def Node.spawn (n : Node σ) : Node σ := { n with threads := n.threads + 1 }

/-- The end of `start` when the fallback of the command line has been tried (client.rs:329-336). -/
def Node.afterFallback (env : Env) (web : Web σ) (f : (Option Fail × Node σ) × σ) : (Option Fail × Node σ) × σ :=
  match f.1.1 with
  | none => ((none, f.1.2.spawn), f.2)
  | some .abort => f
  | some _ =>
    if f.1.2.settings.loadExternal then
      let e := f.1.2.bootFromExternal env web f.2
      match e.1.1 with
      | none => ((none, e.1.2.spawn), e.2)
      | some _ => e
    else ((some .tooOld, f.1.2), f.2)

/-- `Client::start` (client.rs:310-347). -/
def Node.start (env : Env) (web : Web σ) (n : Node σ) (s : σ) : (Option Fail × Node σ) × σ :=
  let p := if n.settings.rpcPort.isSome then web.serve s else (true, s)
  if p.1 = false then ((some .other, n), p.2)
  else
    let r := n.sync env p.2
    match r.1.1 with
    | none => ((none, r.1.2.spawn), r.2)
    | some .tooOld => Node.afterFallback env web (r.1.2.bootFromFallback env web r.2)
    | some f => ((some f, r.1.2), r.2)

/-- One turn of the thread that advances (client.rs:349-363), without the pause: an error is logged. The flag is `false`
when the thread dies. -/
def Node.turn (env : Env) (n : Node σ) (s : σ) : (Node σ × Bool) × σ :=
  let r := LightNode.advance env (n.settings.config n.checkpoint) n.rpc n.client s
  (({ n with client := r.1.1 }, r.1.2 != some .abort), r.2)

/-- Turns of the thread until it dies. -/
def Node.turns (env : Env) : Nat → Node σ → σ → (Node σ × Bool) × σ
  | 0, n, s => ((n, true), s)
  | k + 1, n, s =>
    let r := n.turn env s
    if r.1.2 then Node.turns env k r.1.1 r.2 else r

/-- `duration_until_next_update` (consensus_client.rs:494-509), with the two times that are read: `None` where a
subtraction overflows. -/
def untilNextUpdate (genesis now now' : Nat) : Option Nat :=
  match slotAt genesis now with
  | none => none
  | some slot =>
    let next := (slot + 1) * 12 + genesis
    if next < now' then none else some (next - now' + 8)

/-- `get_header` with `check_head_age` (node.rs:91-94, 109-118): `slot_delay` overflows for a header ahead of the
clock. -/
def Node.header (n : Node σ) (now : Nat) : Except Fail LightClient.Header :=
  match slotAt n.settings.genesisTime now with
  | none => .error .abort
  | some slot =>
    let synced := n.client.store.optimistic.slot.toNat
    if slot < synced then .error .abort
    else if slot - synced > 10 then .error .other
    else .ok n.client.store.optimistic

/-! ## The light client of the beacon network -/

/-- sync.rs:26-37. -/
def beaconBuilder (root : Id) : Builder :=
  { network := some .mainnet, checkpoint := some root, dataDir := some "/tmp/portal-light-client".toList }

/-- The loop of `BeaconSync::start` (sync.rs:49-63): `k` attempts are left; with the number of attempts made. -/
def attempts (env : Env) (web : Web σ) : Nat → Node σ → σ → (Option Fail × Node σ × Nat) × σ
  | 0, n, s => ((some .other, n, 0), s)
  | k + 1, n, s =>
    let r := n.start env web s
    match r.1.1 with
    | none => ((none, r.1.2, 1), r.2)
    | some .abort => ((some .abort, r.1.2, 1), r.2)
    | some _ =>
      let t := attempts env web k r.1.2 (web.sleep 10 r.2)
      ((t.1.1, t.1.2.1, t.1.2.2 + 1), t.2)

/-- `BeaconSync::start` (sync.rs:20-70); `file` is what the data directory has. The client cannot be built: a panic. -/
def beaconSync (env : Env) (web : Web σ) (rpc : Rpc σ) (root : Id) (file : Option Bytes) (s : σ) :
    (Option Fail × Option (Node σ) × Nat) × σ :=
  match (beaconBuilder root).buildWithRpc with
  | .error _ => ((some .abort, none, 0), s)
  | .ok settings =>
    match openDb settings file with
    | .error _ => ((some .abort, none, 0), s)
    | .ok checkpoint =>
      let r := attempts env web 10 (newNode settings rpc checkpoint) s
      ((r.1.1, some r.1.2.1, r.1.2.2), r.2)

end Verif.LightNode
