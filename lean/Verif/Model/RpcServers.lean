import Verif.Model.NodeConfig

/-! # The JSON-RPC servers

Model of the library that `launch_jsonrpc_server` and other programs start JSON-RPC servers with: the selection of
modules for a transport (crates/rpc/src/builder.rs), the servers and the addresses they listen at
(crates/rpc/src/rpc_server.rs) and the origins that browsers are let in from (crates/rpc/src/cors.rs).

Not modelled: jsonrpsee beyond the names it answers, the options of its `ServerBuilder`, the id provider, stopping.
The operating system is a parameter: `bind` says which local address a socket gets. -/

namespace Verif.RpcServers
open Verif.NodeConfig (Str Addr Handlers Module moduleFor split identical)
open Verif.E2store (Res)

/-! ## Modules -/

/-- `RpcModuleSelection` (builder.rs:150-159). -/
inductive Selection where
  | all
  | standard
  | selection (ms : List Module)
deriving DecidableEq, Repr

/-- `RpcModuleSelection::iter_selection` with `all_modules` and `STANDARD_MODULES` (builder.rs:163-176, 199-206). -/
def Selection.modules : Selection → List Module
  | .all => [.beacon, .discv5, .eth, .legacyHistory, .state, .web3]
  | .standard => [.beacon, .discv5, .eth, .legacyHistory, .web3]
  | .selection ms => ms

/-- `RpcModuleSelection::is_empty` (builder.rs:192-197). -/
def Selection.isEmpty : Selection → Bool
  | .selection ms => ms.isEmpty
  | _ => false

/-- `RpcModuleSelection::are_identical` (builder.rs:218-230). -/
def areIdentical : Option Selection → Option Selection → Bool
  | some http, some ws => identical http.modules ws.modules
  | some http, none => http.isEmpty
  | none, some ws => ws.isEmpty
  | none, none => true

/-- `TransportRpcModuleConfig` (builder.rs:60-69). -/
structure Selections where
  http : Option Selection
  ws : Option Selection
  ipc : Option Selection
deriving DecidableEq, Repr

/-- `TransportRpcModules` (builder.rs:256-267) without the configuration: the names that each transport answers. -/
structure Modules where
  http : Option (List Str)
  ws : Option (List Str)
  ipc : Option (List Str)
deriving DecidableEq, Repr

/-- `maybe_module` (builder.rs:375-379). -/
def maybeModule (h : Handlers) : Option Selection → Res (Option (List Str))
  | none => .ok none
  | some sel => (moduleFor h sel.modules).map some

/-- `RpcModuleBuilder::build` (builder.rs:383-396). The cache of modules is not modelled: it hands out what it was
given for the module. -/
def buildModules (h : Handlers) (s : Selections) : Res Modules :=
  (maybeModule h s.http).bind fun http =>
    (maybeModule h s.ws).bind fun ws =>
      (maybeModule h s.ipc).bind fun ipc => .ok ⟨http, ws, ipc⟩

/-! ## Origins -/

/-- `char::is_whitespace`: the characters with the Unicode property White_Space. -/
def isWhite (c : Char) : Bool :=
  let n := c.toNat
  (9 ≤ n && n ≤ 13) || n == 0x20 || n == 0x85 || n == 0xA0 || n == 0x1680 || (0x2000 ≤ n && n ≤ 0x200A) ||
    n == 0x2028 || n == 0x2029 || n == 0x202F || n == 0x205F || n == 0x3000

/-- `str::trim`. -/
def trim (s : Str) : Str := ((s.dropWhile isWhite).reverse.dropWhile isWhite).reverse

/-- `HeaderValue::from_str`: no control characters but the tabulator; the bytes of characters beyond ASCII are
all above 127 and are taken. -/
def headerOk (s : Str) : Bool := s.all fun c => c == '\t' || (32 ≤ c.toNat && c.toNat != 127)

/-- The origins a `CorsLayer` lets in. -/
inductive Cors where
  | any
  | list (origins : List Str)
deriving DecidableEq, Repr

/-- tower-http's `AllowOrigin`: whether the answer to a request from this origin says that it is allowed. -/
def Cors.allows : Cors → Str → Bool
  | .any, _ => true
  | .list os, o => os.contains o

/-- Why a server is not started. -/
inductive Why where
  /-- `CorsDomainError::WildCardNotAllowed` -/
  | wildcard
  /-- `CorsDomainError::InvalidHeader` -/
  | header
  /-- `WsHttpSamePortError::ConflictingCorsDomains` -/
  | conflictingCors
  /-- `WsHttpSamePortError::ConflictingModules` -/
  | conflictingModules
  /-- `RpcError::IoError` -/
  | io
  /-- `RpcError::IpcServerStartError` -/
  | ipc
deriving DecidableEq, Repr

/-- `create_cors_layer` (cors.rs:14-46). -/
def createCors (domains : Str) : Except Why Cors :=
  if trim domains = ['*'] then .ok .any
  else if (split ',' domains).any (· == ['*']) then .error .wildcard
  else if (split ',' domains).all headerOk then .ok (.list (split ',' domains))
  else .error .header

/-! ## Servers -/

/-- `RpcServerConfig` (rpc_server.rs:228-245); `http`, `ws`, `ipc` say whether there is a builder for it. -/
structure Config where
  http : Bool
  httpCors : Option Str
  httpAddr : Option Addr
  ws : Bool
  wsCors : Option Str
  wsAddr : Option Addr
  ipc : Bool
  ipcEndpoint : Option Str
deriving DecidableEq, Repr

/-- A server that is bound to a socket: its local address, the origins it lets in, and whether it takes requests
over HTTP and over WebSocket (`http_only`, `ws_only` of jsonrpsee's `ServerBuilder`). -/
structure Server where
  addr : Addr
  cors : Option Cors
  http : Bool
  ws : Bool
deriving DecidableEq, Repr

/-- What a socket that is bound to an address gets as its local address, when these addresses are already taken by
this process; `none` is an error. -/
abbrev Bind := List Addr → Addr → Option Addr

/-- `WsHttpServerKind::build` (rpc_server.rs:587-608). -/
def buildServer (bind : Bind) (taken : List Addr) (addr : Addr) (domains : Option Str) (http ws : Bool) :
    Except Why Server :=
  (match domains with
    | none => Except.ok none
    | some d => (createCors d).map some).bind fun cors =>
    match bind taken addr with
    | none => .error .io
    | some l => .ok ⟨l, cors, http, ws⟩

/-- `WsHttpServers` (rpc_server.rs:510-518). -/
inductive Servers where
  | samePort (both : Server)
  | differentPort (http ws : Option Server)
deriving DecidableEq, Repr

/-- `WsHttpServer` (rpc_server.rs:500-507). -/
structure WsHttp where
  httpLocal : Option Addr
  wsLocal : Option Addr
  servers : Servers
deriving DecidableEq, Repr

/-- The origins of a server for both transports (rpc_server.rs:391-411). -/
def sharedCors : Option Str → Option Str → Except Why (Option Str)
  | some ws, some http => if trim ws ≠ trim http then .error .conflictingCors else .ok (some ws)
  | none, some http => .ok (some http)
  | some ws, none => .ok (some ws)
  | none, none => .ok none

/-- `build_ws_http` (rpc_server.rs:378-479); `UNSPECIFIED` is 0.0.0.0. -/
def buildWsHttp (bind : Bind) (c : Config) : Except Why WsHttp :=
  let httpAddr : Addr := c.httpAddr.getD ⟨0, 8545⟩
  if c.httpAddr = c.wsAddr ∧ c.http = true ∧ c.ws = true then
    (sharedCors c.wsCors c.httpCors).bind fun cors =>
      (buildServer bind [] httpAddr cors true true).map fun s => ⟨some s.addr, some s.addr, .samePort s⟩
  else
    (if c.ws then (buildServer bind [] (c.wsAddr.getD ⟨0, 8546⟩) c.wsCors false true).map some
      else .ok none).bind fun ws =>
      (if c.http then
          (buildServer bind (ws.map (·.addr)).toList httpAddr c.httpCors true false).map some
        else .ok none).bind fun http =>
        .ok ⟨http.map (·.addr), ws.map (·.addr), .differentPort http ws⟩

/-- A server that answers: the names it answers. -/
structure Running where
  server : Server
  names : List Str
deriving DecidableEq, Repr

/-- `WsHttpServers::start` (rpc_server.rs:522-557). A server that gets no module is dropped, and its socket with
it. -/
def startWsHttp (s : Selections) (m : Modules) : Servers → Except Why (Option Running × Option Running)
  | .samePort both =>
    if areIdentical s.http s.ws then
      match m.http.or m.ws with
      | some names => .ok (some ⟨both, names⟩, some ⟨both, names⟩)
      | none => .ok (none, none)
    else .error .conflictingModules
  | .differentPort http ws =>
    .ok (http.bind fun server => m.http.map fun names => ⟨server, names⟩,
      ws.bind fun server => m.ws.map fun names => ⟨server, names⟩)

/-- `RpcServerHandle` (rpc_server.rs:118-125); for IPC the path and the names. -/
structure Handle where
  httpLocal : Option Addr
  wsLocal : Option Addr
  http : Option Running
  ws : Option Running
  ipc : Option (Str × List Str)
deriving DecidableEq, Repr

/-- `DEFAULT_WEB3_IPC_PATH` (portalnet/src/constants.rs:10). -/
def defaultIpcPath : Str := "/tmp/trin-jsonrpc.ipc".toList

/-- `RpcServerConfig::build` and `RpcServer::start` (rpc_server.rs:67-101, 368-373, 482-496). `ipcStarts` says
whether the operating system lets a server listen at a path. -/
def start (bind : Bind) (ipcStarts : Str → Bool) (c : Config) (s : Selections) (m : Modules) :
    Except Why Handle :=
  (buildWsHttp bind c).bind fun w =>
    (startWsHttp s m w.servers).bind fun r =>
      match (if c.ipc then some (c.ipcEndpoint.getD defaultIpcPath) else none), m.ipc with
      | some path, some names =>
        if ipcStarts path then .ok ⟨w.httpLocal, w.wsLocal, r.1, r.2, some (path, names)⟩ else .error .ipc
      | _, _ => .ok ⟨w.httpLocal, w.wsLocal, r.1, r.2, none⟩

/-- How starting servers ends. -/
inductive Outcome where
  | running (h : Handle)
  | refused (why : Why)
  | abort
deriving DecidableEq, Repr

/-- `RpcModuleBuilder::build` and `TransportRpcModules::start_server` (builder.rs:276-278, 383-396). -/
def serve (bind : Bind) (ipcStarts : Str → Bool) (h : Handlers) (c : Config) (s : Selections) : Outcome :=
  match buildModules h s with
  | .ok m =>
    match start bind ipcStarts c s m with
    | .ok handle => .running handle
    | .error why => .refused why
  | _ => .abort

end Verif.RpcServers
