import Verif.Model.Capacity
import Verif.Model.E2store
import Verif.Model.Events
import Verif.Model.Hex

/-! # From the command line to a running node

Model of `TrinConfig::new_from` (bin/trin/src/cli.rs), of the parsers of single flags
(crates/utils/src/cli.rs, types/network.rs, bootnodes.rs), of `run_trin_internal` (bin/trin/src/run.rs) as far as
it decides what is started, and of the assembly of the JSON-RPC modules (crates/rpc/src/lib.rs, builder.rs,
rpc_server.rs). Strings are lists of characters.

Not modelled: clap itself beyond defaults, `requires` and groups; the operating system (sockets, files, STUN,
UPnP), which is taken to succeed; the flags that are only handed on (discovery port, metrics, poke, transfer limit). -/

namespace Verif.NodeConfig
open Verif.Capacity (Subnetwork)
open Verif.Events (Network)
open Verif.E2store (Res)

abbrev Str := List Char

/-- A string literal as the list of its characters. -/
scoped macro "chars% " s:str : term => do
  let cs ← s.getString.toList.mapM fun c => `($(Lean.Syntax.mkCharLit c))
  `([$(cs.toArray),*])

/-! ## Parsing of single values -/

/-- `str::split(sep)`: always at least one piece. -/
def split (sep : Char) : Str → List Str
  | [] => [[]]
  | c :: cs =>
    if c = sep then [] :: split sep cs
    else
      match split sep cs with
      | [] => [[c]]
      | p :: ps => (c :: p) :: ps

/-- `Display for Network` (network.rs:24-32). -/
def showNetwork : Network → Str
  | .mainnet => "mainnet".toList
  | .angelfood => "angelfood".toList
  | .sepolia => "sepolia".toList

/-- `network_parser` (utils/src/cli.rs:53-62) and `FromStr for Network` (network.rs:34-45), which have the same
table; a network stands for its specification. -/
def parseNetwork (s : Str) : Option Network :=
  if s = "mainnet".toList then some .mainnet
  else if s = "angelfood".toList then some .angelfood
  else if s = "sepolia".toList then some .sepolia
  else none

/-- `Subnetwork::to_cli_arg` (network.rs:96-107). -/
def cliArg : Subnetwork → Str
  | .history => "history".toList
  | .beacon => "beacon".toList
  | .legacyHistory => "legacy_history".toList
  | .state => "state".toList
  | .canonicalIndices => "canonical_indices".toList
  | .verkleState => "verkle_state".toList
  | .transactionGossip => "transaction_gossip".toList
  | .utp => "utp".toList

/-- `FromStr for Subnetwork` (network.rs:76-92). -/
def parseSubnetwork (s : Str) : Option Subnetwork :=
  if s = "history".toList then some .history
  else if s = "beacon".toList then some .beacon
  else if s = "legacy_history".toList then some .legacyHistory
  else if s = "state".toList then some .state
  else if s = "canonical_indices".toList then some .canonicalIndices
  else if s = "verkle_state".toList then some .verkleState
  else if s = "transaction_gossip".toList then some .transactionGossip
  else if s = "utp".toList then some .utp
  else none

/-- `Subnetwork::is_active` (network.rs:110-121). -/
def isActive : Subnetwork → Bool
  | .history => false
  | .beacon => true
  | .legacyHistory => true
  | .state => true
  | .canonicalIndices => false
  | .verkleState => false
  | .transactionGossip => false
  | .utp => false

/-- `Subnetwork::dependencies` (network.rs:124-130). -/
def dependencies : Subnetwork → List Subnetwork
  | .legacyHistory => [.beacon]
  | .state => [.legacyHistory, .beacon]
  | _ => []

/-- `Subnetwork::with_dependencies` (network.rs:133-135). -/
def withDependencies (s : Subnetwork) : List Subnetwork := s :: dependencies s

/-- `collect::<Result<Vec<_>, _>>` over a parser. -/
def parseAll (p : Str → Option α) : List Str → Option (List α)
  | [] => some []
  | s :: ss =>
    match p s with
    | none => none
    | some a => (parseAll p ss).map (a :: ·)

/-- `subnetwork_parser` (utils/src/cli.rs:64-82). -/
def parseSubnetworks (s : Str) : Option (List Subnetwork) :=
  match parseAll parseSubnetwork (split ',' s) with
  | none => none
  | some subs => if subs = [] then none else if subs.all isActive then some subs else none

/-- `Web3TransportType` (utils/src/cli.rs:12-35). -/
inductive Transport where
  | http | ipc
deriving DecidableEq, Repr

def showTransport : Transport → Str
  | .http => "http".toList
  | .ipc => "ipc".toList

def parseTransport (s : Str) : Option Transport :=
  if s = "http".toList then some .http else if s = "ipc".toList then some .ipc else none

/-- `Distance::MAX`, that is `U256::MAX`. -/
def maxDistance : Nat := 2 ^ 256 - 1

/-- `max_radius_parser` (utils/src/cli.rs:84-108) on the number read by `U256::from_str` (`none` when that
fails). -/
def parseMaxRadius (percentage : Option Nat) : Option Nat :=
  match percentage with
  | none => none
  | some p =>
    if p > 100 then none
    else if p = 100 then some maxDistance
    else some (maxDistance / 100 * p)

/-- `str::len`: the length in bytes. -/
def byteLen (s : Str) : Nat := (s.map Char.utf8Size).sum

/-- The optional `0x` in front of hex digits. -/
def stripPrefix : Str → Str
  | '0' :: 'x' :: rest => rest
  | s => s

/-- `B256::from_str` (alloy): hex digits, with or without `0x`, for exactly 32 bytes. -/
def parseB256 (s : Str) : Option Bytes :=
  match Hex.hexBodyDecode (stripPrefix s) with
  | .ok bs => if bs.length = 32 then some bs else none
  | .error _ => none

/-- `check_private_key_length` (utils/src/cli.rs:37-45). -/
def parsePrivateKey (s : Str) : Option Bytes := if byteLen s = 66 then parseB256 s else none

/-- `check_trusted_block_root` (bin/trin/src/cli.rs:413-425). -/
def parseTrustedRoot (s : Str) : Option Bytes :=
  if !"0x".toList.isPrefixOf s then none
  else if byteLen s = 66 then parseB256 s
  else none

/-- `Bootnodes` (bootnodes.rs:87-95); the alias of a boot node, which is only shown, is left out. -/
inductive Bootnodes (ε : Type) where
  | default | none | custom (enrs : List ε)
deriving DecidableEq, Repr

/-- `FromStr for Bootnodes` (bootnodes.rs:121-140); `enr` is `Enr::from_str`. `From<Enr> for Bootnode`
(bootnodes.rs:13-23) keeps the record. -/
def parseBootnodes (enr : Str → Option ε) (s : Str) : Option (Bootnodes ε) :=
  if s = "default".toList then some .default
  else if s = "none".toList then some .none
  else (parseAll enr (split ',' s)).map .custom

/-- `Bootnodes::to_enrs` (bootnodes.rs:98-118); `mainnet` and `angelfood` are the built-in lists. -/
def Bootnodes.toEnrs (mainnet angelfood : List ε) : Bootnodes ε → Network → List ε
  | .default, .mainnet => mainnet
  | .default, .angelfood => angelfood
  | .default, .sepolia => []
  | .none, _ => []
  | .custom enrs, _ => enrs

/-! ## The configuration -/

/-- A path: how it is shown, and whether it is valid UTF-8 (`to_str`). -/
structure Path where
  shown : Str
  utf8 : Bool
deriving DecidableEq, Repr

/-- The flags as given (cli.rs:42-221); `none`/`false` when a flag is absent. The numbers of the storage flags
are below `2^32` and the port below `2^16`. A URL is its normalised text (`Url::as_str`). -/
structure Flags where
  web3Transport : Option Str := none
  web3HttpAddress : Option Str := none
  web3IpcPath : Option Path := none
  externalAddress : Option Str := none
  noStun : Bool := false
  unsafePrivateKey : Option Str := none
  trustedBlockRoot : Option Str := none
  network : Option Str := none
  portalSubnetworks : Option Str := none
  storageTotal : Option Nat := none
  storageBeacon : Option Nat := none
  storageLegacyHistory : Option Nat := none
  storageState : Option Nat := none
  ws : Bool := false
  wsPort : Option Nat := none
  /-- The percentage as read by `U256::from_str`; `some none` is a text that is not a number. -/
  maxRadius : Option (Option Nat) := none
deriving DecidableEq, Repr

/-- `TrinConfig` (cli.rs:48-221), the fields modelled here. -/
structure Config where
  transport : Transport
  httpAddress : Str
  ipcPath : Path
  externalAddress : Option Str
  noStun : Bool
  privateKey : Option Bytes
  trustedRoot : Option Bytes
  network : Network
  subnetworks : List Subnetwork
  storageTotal : Option Nat
  storageBeacon : Option Nat
  storageLegacyHistory : Option Nat
  storageState : Option Nat
  ws : Bool
  wsPort : Nat
  maxRadius : Nat
deriving DecidableEq, Repr

/-- `DEFAULT_WEB3_IPC_PATH`, `DEFAULT_WEB3_HTTP_ADDRESS` (portalnet/src/constants.rs:10-11). -/
def defaultIpcPath : Str := "/tmp/trin-jsonrpc.ipc".toList
def defaultHttpAddress : Str := "http://127.0.0.1:8545/".toList

/-- Errors of the command line: a value that cannot be read, a conflict that clap finds, a conflict that
`new_from` finds. -/
inductive CliErr where
  | badValue | clapConflict | conflict | missingDependency
deriving DecidableEq, Repr

/-- An optional flag with its parser: an absent flag stays absent, a bad value is an error. -/
def optional (p : Str → Option α) : Option Str → Except CliErr (Option α)
  | none => .ok none
  | some s =>
    match p s with
    | some a => .ok (some a)
    | none => .error .badValue

/-- A value that was parsed. -/
def required : Option α → Except CliErr α
  | some a => .ok a
  | none => .error .badValue

/-- A flag with a default text. -/
def withDefault (p : Str → Option α) (default : Str) (given : Option Str) : Except CliErr α :=
  required (p (given.getD default))

/-- The default of `--storage.total` (cli.rs:135-147): none if another storage flag is present, else 1000. -/
def totalOrDefault (f : Flags) : Option Nat :=
  match f.storageTotal with
  | some t => some t
  | none =>
    if f.storageBeacon.isSome then none
    else if f.storageLegacyHistory.isSome then none
    else if f.storageState.isSome then none
    else some 1000

/-- `try_parse_from` with the attributes of cli.rs:48-221: values, defaults (cli.rs:36-40), the group
`external-ips` (at most one of its flags), `requires = "ws"` of `--ws-port`. -/
def tryParse (f : Flags) : Except CliErr Config := do
  let transport ← withDefault parseTransport "ipc".toList f.web3Transport
  let privateKey ← optional parsePrivateKey f.unsafePrivateKey
  let trustedRoot ← optional parseTrustedRoot f.trustedBlockRoot
  let network ← withDefault parseNetwork "mainnet".toList f.network
  let subnetworks ← withDefault parseSubnetworks "beacon,legacy_history".toList f.portalSubnetworks
  let maxRadius ← required (parseMaxRadius (f.maxRadius.getD (some 5)))
  if f.externalAddress.isSome && f.noStun then .error .clapConflict
  else if f.wsPort.isSome && !f.ws then .error .clapConflict
  else
    .ok { transport, privateKey, trustedRoot, network, subnetworks, maxRadius
          httpAddress := f.web3HttpAddress.getD defaultHttpAddress
          ipcPath := f.web3IpcPath.getD ⟨defaultIpcPath, true⟩
          externalAddress := f.externalAddress
          noStun := f.noStun
          storageTotal := totalOrDefault f
          storageBeacon := f.storageBeacon
          storageLegacyHistory := f.storageLegacyHistory
          storageState := f.storageState
          ws := f.ws
          wsPort := f.wsPort.getD 8546 }

/-- The check of the transport (cli.rs:270-302). -/
def checkTransport (c : Config) : Except CliErr Unit :=
  match c.transport with
  | .http => if c.ipcPath.shown = defaultIpcPath then .ok () else .error .conflict
  | .ipc =>
    if c.httpAddress = defaultHttpAddress then if c.ws then .error .conflict else .ok ()
    else .error .conflict

/-- The check of the dependencies (cli.rs:304-313). -/
def checkDependencies (c : Config) : Except CliErr Unit :=
  if c.subnetworks.all fun s => (dependencies s).all fun d => c.subnetworks.contains d then .ok ()
  else .error .missingDependency

/-- The closure `subnetwork_check` (cli.rs:341-363). -/
def checkSubnetwork (c : Config) (s : Subnetwork) (flag : Option Nat) : Except CliErr Unit :=
  if c.subnetworks.contains s && flag.isNone then .error .conflict
  else if flag.isSome && !c.subnetworks.contains s then .error .conflict
  else .ok ()

/-- The check of the storage flags (cli.rs:315-368). -/
def checkStorage (c : Config) : Except CliErr Unit :=
  match c.storageTotal with
  | some _ =>
    if c.storageBeacon.isSome then .error .conflict
    else if c.storageLegacyHistory.isSome then .error .conflict
    else if c.storageState.isSome then .error .conflict
    else .ok ()
  | none => do
    checkSubnetwork c .beacon c.storageBeacon
    checkSubnetwork c .legacyHistory c.storageLegacyHistory
    checkSubnetwork c .state c.storageState

/-- `TrinConfig::new_from` (cli.rs:263-371). -/
def newFrom (f : Flags) : Except CliErr Config := do
  let c ← tryParse f
  checkTransport c
  checkDependencies c
  checkStorage c
  .ok c

/-- `storage_capacity_config` (cli.rs:373-385). -/
def storageConfig (c : Config) : Capacity.Config :=
  match c.storageTotal with
  | some total => .combined total c.subnetworks
  | none => .specific c.storageBeacon c.storageLegacyHistory c.storageState

/-! ## JSON-RPC modules -/

/-- `PortalRpcModule` (builder.rs:32-45). -/
inductive Module where
  | beacon | discv5 | eth | legacyHistory | state | web3
deriving DecidableEq, Repr

/-- The methods of a module: `namespace_name` for every `#[method(name = ..)]` of the traits in
crates/ethportal-api/src/{beacon,discv5,eth,legacy_history,state,web3}.rs. -/
def methods : Module → List Str
  | .beacon =>
    [chars% "portal_beaconRoutingTableInfo", chars% "portal_beaconRadius", chars% "portal_beaconAddEnr",
     chars% "portal_beaconGetEnr", chars% "portal_beaconDeleteEnr", chars% "portal_beaconLightClientStore",
     chars% "portal_beaconLookupEnr", chars% "portal_beaconPing", chars% "portal_beaconFinalizedStateRoot",
     chars% "portal_beaconFinalizedHeader", chars% "portal_beaconFinalityUpdate",
     chars% "portal_beaconOptimisticUpdate", chars% "portal_beaconFindNodes", chars% "portal_beaconRecursiveFindNodes",
     chars% "portal_beaconOptimisticStateRoot", chars% "portal_beaconFindContent", chars% "portal_beaconGetContent",
     chars% "portal_beaconTraceGetContent", chars% "portal_beaconPaginateLocalContentKeys",
     chars% "portal_beaconPutContent", chars% "portal_beaconOffer", chars% "portal_beaconTraceOffer",
     chars% "portal_beaconStore", chars% "portal_beaconLocalContent"]
  | .discv5 =>
    [chars% "discv5_nodeInfo", chars% "discv5_updateNodeInfo", chars% "discv5_routingTableInfo", chars% "discv5_addEnr",
     chars% "discv5_getEnr", chars% "discv5_deleteEnr", chars% "discv5_lookupEnr", chars% "discv5_recursiveFindNodes",
     chars% "discv5_talkReq", chars% "discv5_ping", chars% "discv5_findNode"]
  | .eth =>
    [chars% "eth_chainId", chars% "eth_getBlockByNumber", chars% "eth_getBlockByHash", chars% "eth_getBalance", chars% "eth_getCode",
     chars% "eth_getStorageAt", chars% "eth_call"]
  | .legacyHistory =>
    [chars% "portal_legacyHistoryRoutingTableInfo", chars% "portal_legacyHistoryRadius",
     chars% "portal_legacyHistoryAddEnr", chars% "portal_legacyHistoryGetEnr", chars% "portal_legacyHistoryDeleteEnr",
     chars% "portal_legacyHistoryLookupEnr", chars% "portal_legacyHistoryPing", chars% "portal_legacyHistoryFindNodes",
     chars% "portal_legacyHistoryRecursiveFindNodes", chars% "portal_legacyHistoryFindContent",
     chars% "portal_legacyHistoryGetContent", chars% "portal_legacyHistoryTraceGetContent",
     chars% "portal_legacyHistoryPaginateLocalContentKeys", chars% "portal_legacyHistoryPutContent",
     chars% "portal_legacyHistoryOffer", chars% "portal_legacyHistoryTraceOffer", chars% "portal_legacyHistoryStore",
     chars% "portal_legacyHistoryLocalContent"]
  | .state =>
    [chars% "portal_stateRoutingTableInfo", chars% "portal_stateRadius", chars% "portal_stateAddEnr",
     chars% "portal_stateGetEnr", chars% "portal_stateDeleteEnr", chars% "portal_stateLookupEnr", chars% "portal_statePing",
     chars% "portal_stateFindNodes", chars% "portal_stateRecursiveFindNodes", chars% "portal_stateFindContent",
     chars% "portal_stateGetContent", chars% "portal_stateTraceGetContent",
     chars% "portal_statePaginateLocalContentKeys", chars% "portal_statePutContent", chars% "portal_stateOffer",
     chars% "portal_stateTraceOffer", chars% "portal_stateStore", chars% "portal_stateLocalContent"]
  | .web3 =>
    [chars% "web3_clientVersion"]

/-- The modules for the enabled subnetworks (rpc/src/lib.rs:60-72); `none` is the error
`Unsupported subnetwork`. -/
def subnetworkModules : Subnetwork → Option (List Module)
  | .legacyHistory => some [.legacyHistory, .eth]
  | .state => some [.state]
  | .beacon => some [.beacon]
  | _ => none

def pushModules : List Subnetwork → List Module → Option (List Module)
  | [], ms => some ms
  | s :: ss, ms =>
    match subnetworkModules s with
    | none => none
    | some new => pushModules ss (ms ++ new)

def modulesFor (subs : List Subnetwork) : Option (List Module) := pushModules subs [.discv5, .web3]

/-- Which subnetworks have a channel for requests (`RpcModuleBuilder`, builder.rs:283-294). -/
structure Handlers where
  legacyHistory : Bool
  beacon : Bool
  state : Bool
deriving DecidableEq, Repr

/-- `portal_methods` for one module (builder.rs:407-446): `expect`s the channel it needs. -/
def portalMethods (h : Handlers) : Module → Res (List Str)
  | .discv5 => .ok (methods .discv5)
  | .eth => if h.legacyHistory then .ok (methods .eth) else .panic
  | .legacyHistory => if h.legacyHistory then .ok (methods .legacyHistory) else .panic
  | .beacon => if h.beacon then .ok (methods .beacon) else .panic
  | .state => if h.state then .ok (methods .state) else .panic
  | .web3 => .ok (methods .web3)

/-- `portal_methods` (builder.rs:402-448): all modules are made before any is merged. -/
def allMethods (h : Handlers) : List Module → Res (List (List Str))
  | [] => .ok []
  | m :: ms => (portalMethods h m).bind fun x => (allMethods h ms).map (x :: ·)

/-- jsonrpsee's `Methods::merge` with `expect("No conflicts")` (builder.rs:368-370): a name that is there
already is an error. -/
def mergeAll : List (List Str) → List Str → Res (List Str)
  | [], have_ => .ok have_
  | new :: rest, have_ =>
    if new.any fun n => have_.contains n then .panic else mergeAll rest (have_ ++ new)

/-- `module_for` (builder.rs:365-372). -/
def moduleFor (h : Handlers) (ms : List Module) : Res (List Str) :=
  (allMethods h ms).bind fun all => mergeAll all []

/-- A socket address; the four bytes of the IP address as a number. -/
structure Addr where
  ip : Nat
  port : Nat
deriving DecidableEq, Repr

/-- What the JSON-RPC server answers at: names served over IPC at a path, over HTTP and over WebSocket at an
address. -/
structure Served where
  ipc : Option (Path × List Str)
  http : Option (Addr × List Str)
  ws : Option (Addr × List Str)
deriving DecidableEq, Repr

/-- `RpcModuleSelection::are_identical` (builder.rs:218-230) on two selections: equal as sets. -/
def identical (a b : List Module) : Bool := (a.all fun m => b.contains m) && b.all fun m => a.contains m

/-- `launch_jsonrpc_server` (rpc/src/lib.rs:51-129) with `build_ws_http` and `WsHttpServers::start`
(rpc_server.rs:378-475, 522-557); `resolve` is `Url::socket_addrs`, `none` its error. -/
def launch (resolve : Str → Option (List Addr)) (c : Config) (h : Handlers) : Res Served :=
  match modulesFor c.subnetworks with
  | none => .err
  | some ms =>
    match c.transport with
    | .ipc =>
      (moduleFor h ms).bind fun names =>
        if c.ipcPath.utf8 then .ok ⟨some (c.ipcPath, names), none, none⟩ else .panic
    | .http =>
      (moduleFor h ms).bind fun httpNames =>
        (if c.ws then (moduleFor h ms).map some else .ok none).bind fun wsNames =>
          match resolve c.httpAddress with
          | none => .panic
          | some [] => .panic
          | some (addr :: _) =>
            match wsNames with
            | none => .ok ⟨none, some (addr, httpNames), none⟩
            | some wsNames =>
              let wsAddr : Addr := ⟨0, c.wsPort⟩
              if addr = wsAddr then
                if identical ms ms then .ok ⟨none, some (addr, httpNames), some (addr, httpNames)⟩
                else .err
              else .ok ⟨none, some (addr, httpNames), some (wsAddr, wsNames)⟩

/-! ## Starting the node -/

/-- A subnetwork that runs: its storage capacity in bytes and the largest radius. -/
structure Overlay where
  capacity : Nat
  maxRadius : Nat
deriving DecidableEq, Repr

/-- What runs. -/
structure Node where
  state : Option Overlay
  beacon : Option Overlay
  legacyHistory : Option Overlay
  rpc : Option Served
  events : Events.Node

/-- One `if portal_subnetworks.contains(..) { initialize(.., factory.create(..)?) }` (run.rs:140-205). -/
def initOverlay (subs : List Subnetwork) (storage : Capacity.Config) (s : Subnetwork) (radius : Nat) :
    Res (Option Overlay) :=
  if subs.contains s then
    match Capacity.create storage s with
    | .ok cap => .ok (some ⟨cap, radius⟩)
    | .error .refused => .err
    | .error .panic => .panic
  else .ok none

/-- `run_trin_internal` (run.rs:96-271); `rpc` says whether there is an RPC configuration, which is the one of
`c` (cli.rs:448-458). `PortalnetEvents::start` runs in its own task, which aborts when no overlay runs: that is
counted as an abort here. -/
def runNode (resolve : Str → Option (List Addr)) (net : Network) (subs : List Subnetwork)
    (storage : Capacity.Config) (maxRadius : Nat) (rpc : Option Config) : Res Node :=
  (initOverlay subs storage .state maxRadius).bind fun state =>
    (initOverlay subs storage .beacon maxDistance).bind fun beacon =>
      (initOverlay subs storage .legacyHistory maxRadius).bind fun legacyHistory =>
        (match rpc with
          | none => Res.ok none
          | some c => (launch resolve c ⟨legacyHistory.isSome, beacon.isSome, state.isSome⟩).map some).bind fun rpc =>
          (Events.start (Events.initNode net subs) []).bind fun events =>
            .ok { state, beacon, legacyHistory, rpc, events }

/-- `run_trin_from_trin_config` (run.rs:39-62). -/
def run (resolve : Str → Option (List Addr)) (c : Config) : Res Node :=
  runNode resolve c.network c.subnetworks (storageConfig c) c.maxRadius (some c)

end Verif.NodeConfig
