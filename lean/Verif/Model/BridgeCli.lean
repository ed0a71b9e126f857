import Verif.Model.NodeConfig
import Verif.Model.HeadGen
import Verif.Model.TrieWalker
import Verif.Model.BlockExecutor

/-! # The command line of the bridge

Model of the flag parsers of `portal-bridge` (bin/portal-bridge/src/types/mode.rs, cli.rs, bridge/e2hs.rs), of the
node it starts (handle.rs) and of the choice of the bridge that is run (main.rs and the `launch` of each bridge).

Not modelled: clap, the census, the providers and the data directory, which are taken to succeed; what the bridges
do once they run (C64, C66, C69 and others). -/

namespace Verif.BridgeCli
open Verif.NodeConfig (Str split parseSubnetwork)
open Verif.Capacity (Subnetwork)
open Verif.Events (Network)
open Verif.E2store (Res)
open Verif.HeadGen (parseU64)
open Verif.TrieWalker (BridgeId)

/-- `ModeType` (mode.rs:52-55). -/
inductive ModeType where
  | blockRange (start last : Nat)
deriving DecidableEq, Repr

/-- `BridgeMode` (mode.rs:10-18). -/
inductive Mode where
  | latest | e2hs | ephemeralHistory | single (t : ModeType) | snapshot (block : Nat)
deriving DecidableEq, Repr

/-- The `map(.. parse().expect(..)).collect()` over the pieces of the range (mode.rs:65-73). -/
def parsePieces : List Str → Res (List Nat)
  | [] => .ok []
  | p :: ps =>
    match parseU64 p with
    | none => .panic
    | some n => (parsePieces ps).map (n :: ·)

/-- `FromStr for ModeType` (mode.rs:57-91); `&s[..1]` aborts if the first character takes more than a byte. -/
def parseModeType : Str → Res ModeType
  | [] => .err
  | c :: rest =>
    if c.utf8Size ≠ 1 then .panic
    else if c = 'r' then
      (parsePieces (split '-' rest)).bind fun range =>
        match range with
        | [start, last] => if start > last then .err else .ok (.blockRange start last)
        | _ => .err
    else .err

/-- `find(':')` and `split_at` (mode.rs:31-34): what is in front of the first colon and what is behind it. -/
def cutColon : Str → Option (Str × Str)
  | [] => none
  | c :: cs => if c = ':' then some ([], cs) else (cutColon cs).map fun x => (c :: x.1, x.2)

/-- `FromStr for BridgeMode` (mode.rs:22-50). -/
def parseMode (s : Str) : Res Mode :=
  if s = "latest".toList then .ok .latest
  else if s = "e2hs".toList then .ok .e2hs
  else if s = "ephemeral-history".toList then .ok .ephemeralHistory
  else
    match cutColon s with
    | none => .err
    | some (mode, val) =>
      if mode = "single".toList then (parseModeType val).map .single
      else if mode = "snapshot".toList then
        match parseU64 val with
        | none => .err
        | some n => .ok (.snapshot n)
      else .err

/-- `BlockRange` (e2hs.rs:511-516). -/
structure BlockRange where
  start : Nat
  last : Option Nat
deriving DecidableEq, Repr

/-- `FromStr for BlockRange` (e2hs.rs:518-532). -/
def parseBlockRange (s : Str) : Option BlockRange :=
  match split '-' s with
  | [a, b] =>
    match parseU64 a with
    | none => none
    | some start =>
      if b = [] then some ⟨start, none⟩
      else
        match parseU64 b with
        | none => none
        | some last => some ⟨start, some last⟩
  | _ => none

/-- `FromStr for BridgeId` (cli.rs:215-237). -/
def parseBridgeId (s : Str) : Option BridgeId :=
  match split '/' s with
  | [a, b] =>
    match parseU64 a, parseU64 b with
    | some id, some total => BridgeId.parse id total
    | _, _ => none
  | _ => none

/-- The flags that decide what runs (cli.rs:28-173), as given. -/
structure Flags where
  mode : Option Str := none
  e2hsRange : Option Str := none
  subnetwork : Option Str := none
  network : Option Str := none
  bridgeId : Option Str := none
  offerLimit : Option Nat := none
deriving DecidableEq, Repr

/-- `BridgeConfig` (cli.rs:28-173), the fields modelled here. -/
structure Config where
  mode : Mode
  e2hsRange : Option BlockRange
  subnetwork : Subnetwork
  network : Network
  bridgeId : BridgeId
  offerLimit : Nat
deriving DecidableEq, Repr

/-- An optional result as a result. -/
def orErr : Option α → Res α
  | some a => .ok a
  | none => .err

/-- An optional flag. -/
def optionalFlag (p : Str → Option α) : Option Str → Res (Option α)
  | none => .ok none
  | some s => (orErr (p s)).map some

/-- `BridgeConfig::parse` with the defaults (cli.rs:20, 33, 56, 63, 166, constants.rs `DEFAULT_OFFER_LIMIT`). -/
def parse (f : Flags) : Res Config :=
  (parseMode (f.mode.getD "latest".toList)).bind fun mode =>
    (optionalFlag parseBlockRange f.e2hsRange).bind fun e2hsRange =>
      (orErr (parseSubnetwork (f.subnetwork.getD "legacy_history".toList))).bind fun subnetwork =>
        (orErr (NodeConfig.parseNetwork (f.network.getD "mainnet".toList))).bind fun network =>
          (orErr (parseBridgeId (f.bridgeId.getD "1/1".toList))).bind fun bridgeId =>
            .ok { mode, e2hsRange, subnetwork, network, bridgeId, offerLimit := f.offerLimit.getD 64 }

/-- `subnetworks_flag` (handle.rs:49-63). -/
def subnetworksFlag : Subnetwork → Res (List Subnetwork)
  | .beacon => .ok [.beacon]
  | .legacyHistory => .ok [.beacon, .legacyHistory]
  | .state => .ok [.beacon, .legacyHistory, .state]
  | _ => .panic

/-- `start_trin` (handle.rs:16-45) with `as_node_runtime_config` (cli.rs:175-190): no storage, radius zero, no
RPC server. -/
def startNode (c : Config) : Res NodeConfig.Node :=
  (subnetworksFlag c.subnetwork).bind fun subs =>
    NodeConfig.runNode (fun _ => none) c.network subs (.combined 0 subs) 0 none

/-- What runs. -/
inductive Bridge where
  | beacon
  | e2hs (range : BlockRange) (offerLimit : Nat)
  | ephemeralHistory (offerLimit nonEphemeralLimit : Nat)
  | stateRange (start last : Nat) (id : BridgeId) (offerLimit : Nat)
  | stateSnapshot (block : Nat) (id : BridgeId) (offerLimit : Nat)
deriving DecidableEq, Repr

/-- The choice of the bridge: `main` (main.rs:35-170) with the `expect`s of the overlays, `BeaconBridge::launch`
(beacon.rs:99-108), `StateBridge::launch` (state.rs:104-129, 179-180). -/
def choose (c : Config) (n : NodeConfig.Node) : Res Bridge :=
  match c.subnetwork with
  | .beacon =>
    if n.beacon.isNone then .panic
    else
      match c.mode with
      | .latest => .ok .beacon
      | _ => .panic
  | .legacyHistory =>
    match c.mode with
    | .e2hs =>
      match c.e2hsRange with
      | none => .panic
      | some range => if n.legacyHistory.isNone then .panic else .ok (.e2hs range c.offerLimit)
    | .ephemeralHistory =>
      if n.legacyHistory.isNone then .panic else .ok (.ephemeralHistory c.offerLimit (c.offerLimit / 2))
    | _ => .panic
  | .state =>
    if n.state.isNone then .panic
    else
      match c.mode with
      | .single (.blockRange start last) =>
        match Evm.specBlock .merge with
        | none => .panic
        | some merge => if last > merge then .panic else .ok (.stateRange start last c.bridgeId c.offerLimit)
      | .snapshot block => if block > 0 then .ok (.stateSnapshot block c.bridgeId c.offerLimit) else .panic
      | _ => .panic
  | _ => .panic

/-- `main` (main.rs:20-175). -/
def main (f : Flags) : Res (NodeConfig.Node × Bridge) :=
  (parse f).bind fun c => (startNode c).bind fun n => (choose c n).map fun b => (n, b)

end Verif.BridgeCli
