import Verif.Model.Distance
import Verif.Model.E2store

/-!
# The node's own record (`Discovery::new` in `crates/portalnet/src/discovery.rs`, `crates/portalnet/src/socket.rs`)

What the network answers (the STUN server, the gateway, the interfaces) and the clock are given in a `World`. The signature
of the record, its size limit and the private key are left out: an unusable key is `keyOk = false`. The table of discv5 is
kept as a list of records with at most 16 in one bucket; all bootnodes are added as disconnected, so none of them waits for
a place.
-/

namespace Verif.OwnRecord
open Verif.E2store (Res)

inductive Ip where
  | v4 (a : BitVec 32)
  | v6 (a : BitVec 128)
deriving DecidableEq, Repr

structure Sock where
  ip : Ip
  port : Nat
deriving DecidableEq, Repr

/-- A record of another node: its id, its address if it has one for IPv4 with a UDP port, and its sequence number. -/
structure Peer where
  id : Id
  udp4 : Option (BitVec 32 × Nat)
  seq : Nat
deriving DecidableEq, Repr

/-- `PortalnetConfig` (config.rs:12-24), as far as it is read here; `id` is the node id that belongs to the key. -/
structure Config where
  external : Option Sock
  listenPort : Nat
  noStun : Bool
  noUpnp : Bool
  keyOk : Bool
  id : Id
  bootnodes : List Peer
  cacheCapacity : Nat
deriving DecidableEq, Repr

/-- A UPnP gateway: the local address from which it is reached, the external address it reports, and whether it maps the
port. -/
structure Gateway where
  reachedFrom : Option Ip
  external : Option Ip
  maps : Bool
deriving DecidableEq, Repr

/-- What is found outside: the answer of the STUN server, the gateway, the addresses of the interfaces, the clock (seconds
since 1970). -/
structure World where
  stun : Option Sock
  gateway : Option Gateway
  interfaces : Option (List Ip)
  now : Option Nat
deriving DecidableEq, Repr

/-- What the node does outside. -/
inductive Act where
  | askStun
  | searchGateway
  /-- UDP port `port` of the gateway is mapped to `to` for so many seconds -/
  | mapPort (port : Nat) (to : Sock) (seconds : Nat)
deriving DecidableEq, Repr

/-- `UPNP_MAPPING_DURATION` and `UPNP_MAPPING_TIMEOUT` (socket.rs:14, 17). -/
def mappingDuration : Nat := 3600
def mappingTimeout : Nat := mappingDuration / 2

/-- `stun_for_external` (socket.rs:22-50). -/
def stunForExternal (w : World) : List Act × Option Sock := ([.askStun], w.stun)

/-- `is_local_addr` (socket.rs:52-65). -/
def isLocal (w : World) : Option Ip → Bool
  | none => false
  | some ip =>
    match w.interfaces with
    | none => false
    | some l => l.contains ip

/-- `upnp_for_external` (socket.rs:67-130). -/
def upnpForExternal (w : World) (port : Nat) : List Act × Option Sock :=
  match w.gateway with
  | none => ([.searchGateway], none)
  | some g =>
    match g.reachedFrom with
    | none => ([.searchGateway], none)
    | some ip =>
      match g.external with
      | none => ([.searchGateway], none)
      | some ext =>
        ([.searchGateway, .mapPort port ⟨ip, port⟩ mappingDuration], if g.maps then some ⟨ext, port⟩ else none)

/-- The first choice of the address (discovery.rs:89-100). -/
def knownAddress (c : Config) (w : World) : List Act × Option Ip × Nat :=
  if c.noStun then ([], none, c.listenPort)
  else
    match c.external with
    | some s => ([], some s.ip, s.port)
    | none =>
      match stunForExternal w with
      | (acts, some s) => (acts, some s.ip, s.port)
      | (acts, none) => (acts, none, c.listenPort)

/-- The address in the record (discovery.rs:89-121). `none`: the known address and that of the gateway differ. -/
def ownAddress (c : Config) (w : World) : List Act × Option (Option Ip × Nat) :=
  match knownAddress c w with
  | (acts, ip, port) =>
    if !c.noUpnp && !isLocal w ip then
      match upnpForExternal w c.listenPort with
      | (more, none) => (acts ++ more, some (ip, port))
      | (more, some s) =>
        match ip with
        | none => (acts ++ more, some (some s.ip, s.port))
        | some known =>
          if known ≠ s.ip ∧ c.external.isSome then (acts ++ more, none)
          else (acts ++ more, some (some s.ip, s.port))
    else (acts, some (ip, port))

/-- The own record (discovery.rs:127-158): the address, the UDP port for IPv4, the sequence number. The client and the
protocol versions are the same for every start and left out. -/
structure Record where
  ip : Option Ip
  udp4 : Nat
  seq : Nat
deriving DecidableEq, Repr

/-- Where other nodes reach a record: IPv4 with a UDP port for IPv4 (`udp4_socket` of the `enr` crate). -/
def Record.reachable (r : Record) : Option (BitVec 32 × Nat) :=
  match r.ip with
  | some (.v4 a) => some (a, r.udp4)
  | _ => none

/-- The bucket of an id. -/
def bucketOf (own other : Id) : Option Nat := distLog2 (xorDistance own other)

/-- `Discv5::add_enr` (the `discv5` crate): a record without an address for IPv4 is refused; one that is in the table is
replaced; a full bucket refuses. -/
def addEnr (own : Id) (table : List Peer) (p : Peer) : Option (List Peer) :=
  if p.udp4.isNone then none
  else if table.any fun q => q.id == p.id then some (table.map fun q => if q.id = p.id then p else q)
  else if (table.filter fun q => bucketOf own q.id == bucketOf own p.id).length ≥ 16 then none
  else some (table ++ [p])

/-- The loop over the bootnodes (discovery.rs:170-179). -/
def addBootnodes (own : Id) : List Peer → List Peer → Option (List Peer)
  | table, [] => some table
  | table, p :: ps =>
    if p.id = own then addBootnodes own table ps
    else
      match addEnr own table p with
      | none => none
      | some table => addBootnodes own table ps

/-- A node that is ready to start: its record, the table of discv5 and the capacity of the address cache. -/
structure Node where
  record : Record
  table : List Peer
  cache : Nat
deriving DecidableEq, Repr

/-- `Discovery::new` (discovery.rs:80-197). -/
def new (c : Config) (w : World) : List Act × Res Node :=
  match ownAddress c w with
  | (acts, none) => (acts, .err)
  | (acts, some (ip, port)) =>
    if !c.keyOk then (acts, .err)
    else
      match w.now with
      | none => (acts, .err)
      | some now =>
        match addBootnodes c.id [] c.bootnodes with
        | none => (acts, .err)
        | some table =>
          if c.cacheCapacity * 2 = 0 then (acts, .panic)
          else (acts, .ok ⟨⟨ip, port, now⟩, table, c.cacheCapacity * 2⟩)

/-- The thread that renews the mapping (socket.rs:108-121): attempt `k` is `mappingTimeout * k` seconds after the first one,
which succeeded; `ok` says which attempts succeed. The mapping is in force at a time if a successful attempt is less than
its duration ago. Attempts take no time. -/
def mapped (ok : Nat → Bool) (t : Nat) : Prop :=
  ∃ k, (k = 0 ∨ ok k = true) ∧ mappingTimeout * k ≤ t ∧ t < mappingTimeout * k + mappingDuration

end Verif.OwnRecord
