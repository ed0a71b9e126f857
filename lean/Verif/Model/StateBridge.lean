import Verif.Model.E2ss
import Verif.Model.Execution
import Verif.Model.TrieWalker
import Verif.Model.Census

/-! # The state bridge as a process (`bin/portal-bridge/src/bridge/{state,offer_report}.rs`, `main.rs`)

The items that are to be gossiped are those of Model/TrieWalker (a whole state) and Model/StateDiff (the changes of a
block). This file has what is around them: which blocks are executed and gossiped (`launch_state`), which database a
snapshot is gossiped from (`launch_snapshot`), and the offers (`spawn_offer_tasks`), which run concurrently with the loop
over the items. An event is a step of the loop, the end of an offer, time passing, or the signal to stop; any sequence of
events is an execution. Time is in milliseconds.

Not modelled: metrics, log messages except that the report of a content is printed, errors of the file system. -/

namespace Verif.StateBridge
open Verif.StateContent (Value)
open Verif.TrieWalker (Item BridgeId offered)
open Verif.Census (OfferTrace)
open Verif.E2store (Res)

variable {P : Type}

/-- `SERVE_BLOCK_TIMEOUT` (constants.rs:4). -/
def serveBlockTimeout : Nat := 120000

/-! ## The offers -/

/-- The gossip of one block, or of one snapshot (state.rs:260-348, 350-448): its items in the order of `content_idx`, and
whether it comes to its end (`false`: it fails after these items). -/
structure Batch where
  items : List Item
  ok : Bool

/-- What a bridge does: the items it offers, one after the other (`is_selected`, state.rs:457, 476, 494; `content_idx`
begins anew with each batch, state.rs:279, 363), and whether it comes to its end. A batch that fails is the last one. -/
def plan (b : BridgeId) : List Batch → List Item × Bool
  | [] => ([], true)
  | x :: xs =>
    if x.ok then (offered b x.items ++ (plan b xs).1, (plan b xs).2) else (offered b x.items, false)

/-- An offer to a peer (state.rs:528-590): when it was sent, and its result and when it ended. -/
structure Offer (P : Type) where
  peer : P
  sent : Nat
  result : Option (OfferTrace × Nat)
deriving Repr

/-- `OfferReport` (offer_report.rs:50-58), and how often it was printed. -/
structure Report (P : Type) where
  total : Nat
  accepted : Nat
  declined : List (P × AcceptCode)
  failed : List P
  printed : Nat
deriving Repr

/-- `OfferReport::new` (offer_report.rs:65-73). -/
def Report.new (total : Nat) : Report P := ⟨total, 0, [], [], 0⟩

/-- `OfferReport::update` (offer_report.rs:75-90). -/
def Report.update (r : Report P) (peer : P) (trace : OfferTrace) : Report P :=
  let r := match trace with
    | .success code =>
      if code = .accepted then { r with accepted := r.accepted + 1 }
      else { r with declined := r.declined ++ [(peer, code)] }
    | .failed => { r with failed := r.failed ++ [peer] }
  if r.total = r.accepted + r.failed.length + r.declined.length then { r with printed := r.printed + 1 } else r

/-- `GlobalOfferReport` (offer_report.rs:13-17). -/
structure Totals where
  accepted : Nat
  declined : Nat
  failed : Nat
deriving DecidableEq, Repr

/-- `GlobalOfferReport::update` (offer_report.rs:20-31). -/
def Totals.update (t : Totals) : OfferTrace → Totals
  | .success code =>
    if code = .accepted then { t with accepted := t.accepted + 1 } else { t with declined := t.declined + 1 }
  | .failed => { t with failed := t.failed + 1 }

/-- `GlobalOfferReport::report` (offer_report.rs:33-47): what is printed, the percentages of accepted, declined and failed
offers; nothing without offers. -/
def Totals.report (t : Totals) : Option (Nat × Nat × Nat) :=
  let total := t.accepted + t.failed + t.declined
  if total = 0 then none else some (100 * t.accepted / total, 100 * t.declined / total, 100 * t.failed / total)

/-- One call of `spawn_offer_tasks` (state.rs:504-593): the item, the selected peers (`none`: the census failed), the offers
so far, the report. -/
structure Content (P : Type) where
  item : Item
  peers : Option (List P)
  offers : List (Offer P)
  report : Report P

/-- A new call: the census was asked (state.rs:509-516). -/
def Content.start (item : Item) (peers : Option (List P)) : Content P :=
  ⟨item, peers, [], .new (peers.getD []).length⟩

/-- The next peer (state.rs:518). -/
def Content.next (c : Content P) : Option P := (c.peers.getD [])[c.offers.length]?

/-- How the call of `send_offer_trace` ends (state.rs:534-559). -/
inductive Reply where
  | trace (t : OfferTrace)
  | error
  | timeout
deriving DecidableEq, Repr

/-- state.rs:544-559. -/
def Reply.toTrace : Reply → OfferTrace
  | .trace t => t
  | .error => .failed
  | .timeout => .failed

/-- The process: in the loop, with the items that are left; or it has ended, when the loop was through, when the gossip failed
(`expect`, state.rs:111, 127), or by the signal (main.rs:178-195). -/
inductive Main where
  | running (todo : List Item)
  | finished
  | panicked
  | stopped
deriving DecidableEq, Repr

/-- A call of `record_offer_result` (state.rs:561-567). -/
structure Recorded (P : Type) where
  peer : P
  size : Nat
  duration : Nat
  trace : OfferTrace
deriving DecidableEq, Repr

structure State (P : Type) where
  main : Main
  /-- in the order in which they were started -/
  contents : List (Content P)
  /-- free permits of `offer_semaphore` -/
  permits : Nat
  clock : Nat
  totals : Totals
  /-- latest first -/
  recorded : List (Recorded P)

/-- What happens: a step of the loop (with the answer of the census, should it be asked), the end of the `k`-th offer of
the `i`-th content, time passing, the signal. -/
inductive Event (P : Type) where
  | main (census : Option (List P))
  | reply (i k : Nat) (r : Reply)
  | tick (d : Nat)
  | signal

/-- The next offer of the last content is sent when there is a permit (state.rs:518-527, 595-601). -/
def sendNext (s : State P) (before : List (Content P)) (c : Content P) (peer : P) : State P :=
  if s.permits = 0 then s
  else
    { s with
      permits := s.permits - 1
      contents := before ++ [{ c with offers := c.offers ++ [⟨peer, s.clock, none⟩] }] }

/-- The next item (state.rs:450-516), or the end: the gossip was complete (`ok`) or failed. -/
def nextItem (ok : Bool) (s : State P) (todo : List Item) (census : Option (List P)) : State P :=
  match todo with
  | [] => { s with main := if ok then .finished else .panicked }
  | item :: todo => { s with main := .running todo, contents := s.contents ++ [.start item census] }

/-- A step of the loop: offers of the last content are sent before the next item is taken (state.rs:518). -/
def stepMain (ok : Bool) (s : State P) (todo : List Item) (census : Option (List P)) : State P :=
  match s.contents.getLast? with
  | none => nextItem ok s todo census
  | some c =>
    match c.next with
    | none => nextItem ok s todo census
    | some peer => sendNext s s.contents.dropLast c peer

/-- The end of an offer (state.rs:561-590); an offer can time out only when its time is over. -/
def endOffer (s : State P) (i k : Nat) (r : Reply) : State P :=
  match s.contents[i]? with
  | none => s
  | some c =>
    match c.offers[k]? with
    | some ⟨peer, sent, none⟩ =>
      if r = .timeout ∧ s.clock < sent + serveBlockTimeout then s
      else
        { s with
          contents := s.contents.set i { c with
            offers := c.offers.set k ⟨peer, sent, some (r.toTrace, s.clock)⟩
            report := c.report.update peer r.toTrace }
          permits := s.permits + 1
          totals := s.totals.update r.toTrace
          recorded := ⟨peer, c.item.2.encode.length, s.clock - sent, r.toTrace⟩ :: s.recorded }
    | _ => s

/-- One event. When `launch` has returned, or the signal was received, `main` returns and the tasks of the offers end with
the runtime (main.rs:139-168, 172-196). -/
def step (ok : Bool) (s : State P) (e : Event P) : State P :=
  match s.main with
  | .running todo =>
    match e with
    | .main census => stepMain ok s todo census
    | .reply i k r => endOffer s i k r
    | .tick d => { s with clock := s.clock + d }
    | .signal => { s with main := .stopped }
  | _ => s

/-- `StateBridge::new` (state.rs:81-102) with what is to be offered. -/
def init (limit : Nat) (items : List Item) : State P := ⟨.running items, [], limit, 0, ⟨0, 0, 0⟩, []⟩

/-- An execution. -/
def run (ok : Bool) (s : State P) (es : List (Event P)) : State P := es.foldl (step ok) s

/-! ## A range of blocks -/

section Range
open Verif.Execution
variable {Key Val : Type} [DecidableEq Key]

/-- The bridge has no signal for the execution (`None`, state.rs:144; execution.rs:58-61). -/
def noStop (ts : List Tick) : List Tick := ts.map fun t => { t with stop := false }

/-- The loop of `launch_state` (state.rs:155-169): the nodes after each block that is gossiped, and how it ends. A round is what
the execution of one block meets. -/
def gossipLoop (m : Machine Key Val) (stop : Nat) : List (List Tick) → Node Key Val → List (Node Key Val) × Outcome
  | [], n => ([], if n.disk.next ≤ stop then .interrupted else .done)
  | ts :: rounds, n =>
    if n.disk.next ≤ stop then
      match processNext m (noStop ts) n with
      | (.done, n') => let r := gossipLoop m stop rounds n'; (n' :: r.1, r.2)
      | (o, _) => ([], o)
    else ([], .done)

/-- `get_spec_block_number(SpecId::MERGE)` (crates/evm/src/spec_id.rs). -/
def mergeBlock : Nat := 15537394

/-- `launch` for a range of blocks and `launch_state` (state.rs:117-176): in a new directory, the blocks before `start` are
executed without gossip. `none` is the panic. -/
def launchRange (m : Machine Key Val) (emptyRoot start stop : Nat) (before : List Tick) (rounds : List (List Tick)) :
    Option (List (Node Key Val) × Outcome) :=
  if stop > mergeBlock then none
  else if start > 0 then
    match processRange m (start - 1) (noStop before) (restart (Disk.fresh emptyRoot)) with
    | (.done, n) => some (gossipLoop m stop rounds n)
    | (o, _) => some ([], o)
  else some (gossipLoop m stop rounds (restart (Disk.fresh emptyRoot)))

end Range

/-! ## A snapshot -/

section Snapshot
open Verif.E2ss Verif.EvmDb

/-- What one launch meets: the list of files (`get_e2ss_files`), the download of a file, the blocks that are downloaded for
their hashes, and the nodes that are written with the account trie (Model/E2ss). -/
structure Web where
  listing : Option (List UInt64)
  download : UInt64 → Option Bytes
  block : UInt64 → Option (UInt64 × Id)
  nodes : Nat → List Bytes

variable (c : Codecs) (lib : Lib)

/-- The first part of `launch_snapshot` (state.rs:178-238): the database that is there is used when it is at the block after the
snapshot; otherwise it is deleted and the snapshot is downloaded and imported. `snapshot_block + 1` aborts for the last
`u64` with overflow checks. -/
def prepare (web : Web) (snapshot : UInt64) (d : Disk) : Disk × Res Unit :=
  if snapshot = 0 then (d, .err)
  else if snapshot.toNat + 1 = 2 ^ 64 then (d, .panic)
  else if d.next = snapshot + 1 then (d, .ok ())
  else
    match web.listing with
    | none => (Disk.fresh lib, .err)
    | some l =>
      if l.contains snapshot = false then (Disk.fresh lib, .err)
      else
        match web.download snapshot with
        | none => (Disk.fresh lib, .err)
        | some file =>
          match importAll c lib web.nodes web.block file (Disk.fresh lib) with
          | (d, r) => (d, r.map fun _ => ())

/-- Where a launch is killed while it prepares: the directory is new; the state is being imported; the position was written
and some of the block hashes. -/
inductive Kill where
  | emptied
  | importing (kv : Kv)
  | hashes (written : Nat)

/-- The database after a launch that was killed while it prepared. Before the position is written, what is in the database
besides can be anything (`kv`). -/
def killed (web : Web) (snapshot : UInt64) (d : Disk) (k : Kill) : Disk :=
  if snapshot = 0 ∨ snapshot.toNat + 1 = 2 ^ 64 ∨ d.next = snapshot + 1 then d
  else
    match k with
    | .emptied => Disk.fresh lib
    | .importing kv => { Disk.fresh lib with kv }
    | .hashes written =>
      match web.listing, web.download snapshot with
      | some l, some file =>
        if l.contains snapshot = false then Disk.fresh lib
        else
          match importState c lib web.nodes file ((Disk.fresh lib).open lib) with
          | (db, .ok h) =>
            if h.number.toNat + 1 = 2 ^ 64 then { Disk.fresh lib with kv := db.kv }
            else
              let first := if h.number ≤ 256 then 0 else h.number - 256
              ⟨(hashLoop lib web.block (min written (h.number.toNat - first.toNat + 1)) first db.kv).1, db.trie,
                h.number + 1, h.stateRoot⟩
          | (db, _) => { Disk.fresh lib with kv := db.kv }
      | _, _ => Disk.fresh lib

/-- What a snapshot is gossiped from: the database, the block number and the block hash (state.rs:240-258, 350-364). -/
structure Gossip where
  disk : Disk
  number : UInt64
  hash : Id

/-- `launch_snapshot` up to the loop over the items (state.rs:178-364). An error ends the process (`expect`, state.rs:111, 256). -/
def launchSnapshot (web : Web) (snapshot : UInt64) (d : Disk) : Disk × Res Gossip :=
  match prepare c lib web snapshot d with
  | (d, .err) => (d, .err)
  | (d, .panic) => (d, .panic)
  | (d, .ok ()) =>
    if d.next = 0 then (d, .err)
    else
      match blockHash lib (d.open lib) (d.next - 1) with
      | none => (d, .panic)
      | some hash => (d, .ok ⟨d, d.next - 1, hash⟩)

/-- A launch in the past: whole, or killed while it prepared. Gossip does not change the database. -/
structure Launch where
  web : Web
  snapshot : UInt64
  kill : Option Kill

def Launch.after (l : Launch) (d : Disk) : Disk :=
  match l.kill with
  | none => (launchSnapshot c lib l.web l.snapshot d).1
  | some k => killed c lib l.web l.snapshot d k

/-- The database after launches. -/
def launches (d : Disk) (ls : List Launch) : Disk := ls.foldl (fun d l => l.after c lib d) d

end Snapshot

end Verif.StateBridge
