import Verif.Model.NodeConfig
import Verif.Props.Capacity
import Verif.Props.Hex

/-! # C75: what a command line asks for

`Active` (from C25) says that a subnetwork is one of beacon, legacy history and state. -/

namespace Verif.Props.StartSpec
open Verif.NodeConfig
open Verif.Capacity (Subnetwork)
open Verif.Events (Network)

/-- The names of the subnetworks on the command line. -/
def nameOf : Subnetwork → String
  | .history => "history"
  | .beacon => "beacon"
  | .legacyHistory => "legacy_history"
  | .state => "state"
  | .canonicalIndices => "canonical_indices"
  | .verkleState => "verkle_state"
  | .transactionGossip => "transaction_gossip"
  | .utp => "utp"

/-- The names of the networks. -/
def networkName : Network → String
  | .mainnet => "mainnet"
  | .angelfood => "angelfood"
  | .sepolia => "sepolia"

/-- Pieces with commas between them. -/
def joined : List (List Char) → List Char
  | [] => []
  | [s] => s
  | s :: t :: rest => s ++ ',' :: joined (t :: rest)

/-- The text lists these subnetworks, all of which can be run. -/
def Lists (text : List Char) (subs : List Subnetwork) : Prop :=
  subs ≠ [] ∧ (∀ s ∈ subs, Active s) ∧ text = joined (subs.map fun s => (nameOf s).toList)

/-- The subnetworks asked for: those listed, or beacon and legacy history. -/
def Asked (f : Flags) (subs : List Subnetwork) : Prop :=
  match f.portalSubnetworks with
  | none => subs = [.beacon, .legacyHistory]
  | some text => Lists text subs

/-- The text is `0x` and the hex digits, of either case, of these 32 bytes. -/
def Denotes (text : List Char) (bytes : Bytes) : Prop :=
  bytes.length = 32 ∧ ∃ digits, text = '0' :: 'x' :: digits ∧
    digits.map Char.toLower = Hex.hexBody Hex.digit bytes

/-- What each subnetwork needs besides itself. -/
def Needs : Subnetwork → Subnetwork → Prop
  | .legacyHistory, t => t = .beacon
  | .state, t => t = .beacon ∨ t = .legacyHistory
  | _, _ => False

/-- HTTP was asked for; IPC is the default. -/
def wantsHttp (f : Flags) : Prop := f.web3Transport = some "http".toList

/-- The flags fit together, `subs` being the subnetworks asked for. -/
structure Consistent (f : Flags) (subs : List Subnetwork) : Prop where
  transport : ∀ t ∈ f.web3Transport, t = "http".toList ∨ t = "ipc".toList
  key : ∀ t ∈ f.unsafePrivateKey, ∃ bytes, Denotes t bytes
  root : ∀ t ∈ f.trustedBlockRoot, ∃ bytes, Denotes t bytes
  network : ∀ t ∈ f.network, ∃ n, t = (networkName n).toList
  radius : ∀ r ∈ f.maxRadius, ∃ p ≤ 100, r = some p
  address : f.externalAddress ≠ none → f.noStun = false
  wsPort : f.wsPort ≠ none → f.ws = true
  /-- With HTTP no other IPC path is given. -/
  http : wantsHttp f → ∀ p ∈ f.web3IpcPath, p.shown = "/tmp/trin-jsonrpc.ipc".toList
  /-- Without HTTP no other HTTP address is given, nor WebSocket asked for. -/
  ipc : ¬ wantsHttp f → (∀ a ∈ f.web3HttpAddress, a = "http://127.0.0.1:8545/".toList) ∧ f.ws = false
  closed : ∀ s ∈ subs, ∀ t, Needs s t → t ∈ subs
  /-- A total excludes sizes of single subnetworks. -/
  total : f.storageTotal ≠ none →
    f.storageBeacon = none ∧ f.storageLegacyHistory = none ∧ f.storageState = none
  /-- If one size is given, exactly those of the subnetworks asked for are. -/
  sizes : f.storageBeacon ≠ none ∨ f.storageLegacyHistory ≠ none ∨ f.storageState ≠ none →
    (f.storageBeacon ≠ none ↔ .beacon ∈ subs) ∧
    (f.storageLegacyHistory ≠ none ↔ .legacyHistory ∈ subs) ∧
    (f.storageState ≠ none ↔ .state ∈ subs)

/-- The bytes a subnetwork may store: what is set for it, or its share of the total: the beacon network gets
none, the others get equal parts. -/
def sizeFor (f : Flags) (subs : List Subnetwork) (s : Subnetwork) : Nat :=
  if f.storageBeacon = none ∧ f.storageLegacyHistory = none ∧ f.storageState = none then
    let total := f.storageTotal.getD 1000
    match s with
    | .beacon => 0
    | .legacyHistory => if .state ∈ subs then total * 500000 else total * 1000000
    | .state => if .legacyHistory ∈ subs then total * 500000 else total * 1000000
    | _ => 0
  else
    match s with
    | .beacon => f.storageBeacon.getD 0 * 1000000
    | .legacyHistory => f.storageLegacyHistory.getD 0 * 1000000
    | .state => f.storageState.getD 0 * 1000000
    | _ => 0

/-- The radius is that share of the whole distance. -/
def radiusOf (f : Flags) : Nat :=
  match f.maxRadius with
  | some (some 100) => 2 ^ 256 - 1
  | some (some p) => (2 ^ 256 - 1) / 100 * p
  | _ => (2 ^ 256 - 1) / 100 * 5

/-- The settings that the flags mean. -/
structure Settings (f : Flags) (c : Config) : Prop where
  transport : (c.transport = .http ↔ wantsHttp f)
  httpAddress : c.httpAddress = f.web3HttpAddress.getD "http://127.0.0.1:8545/".toList
  ipcPath : c.ipcPath = f.web3IpcPath.getD ⟨"/tmp/trin-jsonrpc.ipc".toList, true⟩
  externalAddress : c.externalAddress = f.externalAddress
  noStun : c.noStun = f.noStun
  noKey : f.unsafePrivateKey = none → c.privateKey = none
  key : ∀ t ∈ f.unsafePrivateKey, ∃ bytes, Denotes t bytes ∧ c.privateKey = some bytes
  noRoot : f.trustedBlockRoot = none → c.trustedRoot = none
  root : ∀ t ∈ f.trustedBlockRoot, ∃ bytes, Denotes t bytes ∧ c.trustedRoot = some bytes
  network : (networkName c.network).toList = f.network.getD "mainnet".toList
  beacon : c.storageBeacon = f.storageBeacon
  legacyHistory : c.storageLegacyHistory = f.storageLegacyHistory
  state : c.storageState = f.storageState
  /-- The total is 1000 megabytes if no size is given at all. -/
  total : c.storageTotal =
    if f.storageBeacon = none ∧ f.storageLegacyHistory = none ∧ f.storageState = none then
      some (f.storageTotal.getD 1000)
    else f.storageTotal
  ws : c.ws = f.ws
  wsPort : c.wsPort = f.wsPort.getD 8546
  maxRadius : c.maxRadius = radiusOf f

/-- The methods that a node running these subnetworks answers. -/
def Answers (subs : List Subnetwork) (method : List Char) : Prop :=
  method ∈ methods .discv5 ∨ method ∈ methods .web3 ∨
  (.beacon ∈ subs ∧ method ∈ methods .beacon) ∨
  (.legacyHistory ∈ subs ∧ (method ∈ methods .legacyHistory ∨ method ∈ methods .eth)) ∨
  (.state ∈ subs ∧ method ∈ methods .state)

/-- A list of names of methods, each once, for exactly these subnetworks. -/
def AnswersExactly (subs : List Subnetwork) (names : List (List Char)) : Prop :=
  names.Nodup ∧ ∀ m, m ∈ names ↔ Answers subs m

end Verif.Props.StartSpec
