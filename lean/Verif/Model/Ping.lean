import Verif.Model.PingExt
import Verif.Model.Distance

/-! # Ping and pong processing

`crates/portalnet/src/overlay/service/ping/{mod,handlers}.rs`, `crates/portalnet/src/types/node.rs`.
The routing table (discv5) is the finite map it presents through `entry(..).present_or_pending()` and
`update_node(.., None)` (kbucket.rs:42-47, 92-107): updating replaces the value of a present or
pending key and does nothing for an absent one. The overlay passes no table or bucket filters. -/

namespace Verif.Ping
open Verif.Wire Verif.PingExt

variable {E : Type}

/-- `Node` (node.rs:9-21). -/
structure Node (E : Type) where
  enr : E
  radius : Nat
  capabilities : Option (List ExtType)
  ephemeral : Option UInt16
deriving DecidableEq, Repr

/-- What the handlers need: node id and sequence number of a record, the UTF-8 check, the
extensions of the subnetwork (`supported_extensions`, ping_extensions.rs:3-18). -/
structure Env (E : Type) where
  nodeId : E → Id
  seq : E → Nat
  utf8 : Bytes → Bool
  supported : List ExtType

/-- Routing table and the FIND_NODES(0) requests issued so far (`request_node`, manager.rs:711-723). -/
structure State (E : Type) where
  table : Id → Option (Node E)
  requested : List E

/-- `handle_capabilities` (handlers.rs:7-20). -/
def handleCapabilities (r : Nat) (caps : List ExtType) (n : Node E) : Option (Node E) :=
  if n.radius ≠ r ∨ n.capabilities ≠ some caps then
    some { n with radius := r, capabilities := some caps }
  else none

/-- `handle_basic_radius` (handlers.rs:22-29). -/
def handleBasicRadius (r : Nat) (n : Node E) : Option (Node E) :=
  if n.radius ≠ r then some { n with radius := r } else none

/-- `handle_history_radius` (handlers.rs:31-42). -/
def handleHistoryRadius (r : Nat) (h : UInt16) (n : Node E) : Option (Node E) :=
  if n.radius ≠ r ∨ n.ephemeral ≠ some h then
    some { n with radius := r, ephemeral := some h }
  else none

/-- The match on the extension (mod.rs:157-173 and 222-238): `none` is no update. -/
def handleExt (e : Ext) (n : Node E) : Option (Node E) :=
  match e with
  | .capabilities _ r caps => handleCapabilities r caps n
  | .basicRadius r => handleBasicRadius r n
  | .historyRadius r h => handleHistoryRadius r h n
  | .error .. => none

/-- `update_node` (manager.rs:677-686, kbucket.rs:104-107): the key comes from the record. -/
def updateNode (env : Env E) (t : Id → Option (Node E)) (n : Node E) : Id → Option (Node E) :=
  fun p => if p = env.nodeId n.enr then (t p).map fun _ => n else t p

/-- Decoding, support check and handler (mod.rs:136-177 and 201-242). -/
def applyPayload (env : Env E) (t : Id → Option (Node E)) (n : Node E) (m : PingBody) :
    Id → Option (Node E) :=
  match decodeExt env.utf8 m.payloadType m.payload with
  | none => t
  | some e =>
    if e.type ∈ env.supported then
      match handleExt e n with
      | some n' => updateNode env t n'
      | none => t
    else t

/-- `process_ping` (mod.rs:123-179) and `process_pong` (mod.rs:184-244), which treat the message
alike; `source` is the sender's node id. -/
def process (env : Env E) (s : State E) (source : Id) (m : PingBody) : State E :=
  match s.table source with
  | none => s
  | some n =>
    { table := applyPayload env s.table n m
      requested := if env.seq n.enr < m.enrSeq.toNat then s.requested ++ [n.enr] else s.requested }

/-- A received ping or pong. -/
structure Event where
  source : Id
  body : PingBody

def run (env : Env E) (s : State E) (evs : List Event) : State E :=
  evs.foldl (fun s e => process env s e.source e.body) s

/-- What the local node answers with: its record's sequence number, data radius and client
information (`local_enr`, `data_radius`, `create_capabilities`, mod.rs:246-251). -/
structure Local where
  enrSeq : UInt64
  radius : Nat
  info : Option ClientInfo

/-- `ErrorCodes` (type_65535.rs:61-77). -/
def extensionNotSupported : UInt16 := 0
def systemError : UInt16 := 3

/-- `create_capabilities` (mod.rs:246-251); `VariableList::from(Vec)` keeps 400 entries. -/
def createCapabilities (l : Local) (supported : List ExtType) : Ext :=
  .capabilities l.info l.radius (supported.take 400)

/-- `create_pong` (mod.rs:48-54). -/
def createPong (l : Local) (t : ExtType) (e : Ext) : PingBody := ⟨l.enrSeq, t, e.payload⟩

/-- `handle_ping` (mod.rs:57-120); `none` is the panic of `unreachable!` (mod.rs:116-118). -/
def handlePing (l : Local) (supported : List ExtType) (m : PingBody) : Option PingBody :=
  if m.payloadType ∉ supported then
    some (createPong l .error (.error extensionNotSupported []))
  else match m.payloadType with
    | .capabilities => some (createPong l .capabilities (createCapabilities l supported))
    | .basicRadius => some (createPong l .basicRadius (.basicRadius l.radius))
    | .historyRadius => some (createPong l .historyRadius (.historyRadius l.radius 0))
    | .error => some (createPong l .error (.error systemError []))
    | .nonSupported _ => none

/-- `latest_mutually_supported_base_extension` (beacon, state and legacy-history
`ping_extensions.rs:17-27`). -/
def latestBase (base : List ExtType) (peer : List ExtType) : Option ExtType :=
  base.find? fun b => decide (b ∈ peer)

/-- `handle_base_extension` (mod.rs:253-275). -/
def baseExt (l : Local) (supported : List ExtType) : ExtType → Ext
  | .basicRadius => .basicRadius l.radius
  | .historyRadius => .historyRadius l.radius 0
  | _ => createCapabilities l supported

/-- The ping sent by `ping_node` (mod.rs:280-299). -/
def pingNode (l : Local) (supported base : List ExtType) (n : Node E) : PingBody :=
  let e := match n.capabilities.map (latestBase base) with
    | some (some t) => baseExt l supported t
    | _ => createCapabilities l supported
  ⟨l.enrSeq, e.type, e.payload⟩

/-- consts.rs:3-23; history and beacon and state share one list. -/
def historySupported : List ExtType := [.capabilities, .basicRadius, .error]
def beaconSupported : List ExtType := [.capabilities, .basicRadius, .error]
def legacyHistorySupported : List ExtType := [.capabilities, .historyRadius, .error]
def stateSupported : List ExtType := [.capabilities, .basicRadius, .error]

/-- `BASE_EXTENSIONS`: beacon and state `ping_extensions.rs:13`, legacy-history
`ping_extensions.rs:13`. -/
def beaconBase : List ExtType := [.basicRadius]
def stateBase : List ExtType := [.basicRadius]
def legacyHistoryBase : List ExtType := [.historyRadius]

end Verif.Ping
