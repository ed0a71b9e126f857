import Verif.Model.HistoryValidator
import Verif.Model.Archive
import Verif.Model.Epochs
import Verif.Model.Census

/-!
# The E2HS bridge (`bin/portal-bridge/src/bridge/{e2hs,offer_report,constants}.rs`)

The bridge reads archive files epoch by epoch and offers the blocks of a range to the peers that the census selects.
It is a program of tasks: the launcher, a task for every block, a task for every content of a block, and a task for
every offer. The state is a tree: a block task holds its content tasks, which hold their offers. An event is a step of
one task, or time passing; any sequence of events is an execution. An event of a task that is waiting changes nothing.

Not modelled: the metrics, the log messages except that a report is printed, and the retry of the list of files.
Time is in milliseconds.
-/

namespace Verif.E2hsBridge
open Verif.HistoryValue (Lib Body Value)
open Verif.HeaderValidator (HeaderProof Net Trusted Verdict)
open Verif.E2store (Res Entry)
open Verif.Archive (E2hsTuple E2hsCodecs e2hsFormat)
open Verif.ContentKey (Legacy)
open Verif.Census (OfferTrace)

variable {Hd Tx Rc Wd P : Type}

/-- `HEADER_SATURATION_DELAY` (constants.rs:3). -/
def saturationDelay : Nat := 2000

/-- `BLOCKS_PER_E2HS` (e2store/src/e2hs.rs:47). -/
def blocksPerFile : Nat := 8192

/-- A block of a file: `BlockTuple` (e2store/src/e2hs.rs:235-240). -/
abbrev Tuple (Hd Tx Rc Wd : Type) := E2hsTuple (Hd × HeaderProof) (Body Hd Tx Wd) (List Rc)

/-- What an execution depends on and does not change: the library, the network, the data of the header validator
(e2hs.rs:105-107), the encodings of the records in the files, the limit of offers, and what the file server answers for
the file of an epoch (`none`: there is no such file, or the request fails). -/
structure Env (Hd Tx Rc Wd : Type) where
  lib : Lib Hd Tx Rc Wd
  H : Id → Id → Id
  net : Net
  trusted : Trusted
  codecs : E2hsCodecs (Hd × HeaderProof) (Body Hd Tx Wd) (List Rc)
  offerLimit : Nat
  download : Nat → Option Bytes

/-- The number of a block (e2hs.rs:186-190). -/
def number (env : Env Hd Tx Rc Wd) (t : Tuple Hd Tx Rc Wd) : UInt64 := (env.lib.view t.headerWithProof.1).number

/-- `hash_slow` of the header of a block (e2hs.rs:288). -/
def blockHash (env : Env Hd Tx Rc Wd) (t : Tuple Hd Tx Rc Wd) : Id :=
  env.lib.keccak (env.lib.header.enc t.headerWithProof.1)

/-- The test of the header in `validate_block_tuple` (e2hs.rs:233-244). The validator has the default summaries
(none), which are not looked at for the proofs that are checked. -/
def validateHeader (env : Env Hd Tx Rc Wd) (t : Tuple Hd Tx Rc Wd) : Verdict :=
  match t.headerWithProof.2 with
  | .capella _ => .accept
  | .deneb _ => .accept
  | p => (HeaderValidator.validate env.H env.net env.trusted [] (fun _ => none)
      (env.lib.hdr t.headerWithProof.1) p).1

/-- `validate_block_tuple` (e2hs.rs:231-252). -/
def validateTuple (env : Env Hd Tx Rc Wd) (t : Tuple Hd Tx Rc Wd) : Verdict :=
  match validateHeader env t with
  | .accept =>
    if !HistoryValidator.validateBody env.lib t.body t.headerWithProof.1 then .reject
    else if !HistoryValidator.validateReceipts env.lib t.receipts t.headerWithProof.1 then .reject
    else .accept
  | v => v

/-- `send_offer` (e2hs.rs:426-506): an offer to a peer, sent at a time, and its result with the time it ended. -/
structure Offer (P : Type) where
  peer : P
  sent : Nat
  result : Option (OfferTrace × Nat)

/-- How the call of `send_offer_trace` ends (e2hs.rs:439-466). -/
inductive Reply where
  | trace (t : OfferTrace)
  | error
  | timeout

/-- e2hs.rs:449-466. -/
def Reply.toTrace : Reply → OfferTrace
  | .trace t => t
  | .error => .failed
  | .timeout => .failed

/-- The task of a content (`gossip_content`, e2hs.rs:376-424): its key and encoded value, what the census answered
(`some none`: an error), the peers that are still to be offered to, the offers, and how often its report was printed
(offer_report.rs:84-86). -/
structure Content (P : Type) where
  key : Legacy
  value : Bytes
  asked : Option (Option (List P))
  queue : List P
  offers : List (Offer P)
  reports : Nat

/-- `start_gossip_task` (e2hs.rs:363-371). The encodings of headers, bodies and receipts do not fail. -/
def Content.start (key : Legacy) (value : Bytes) : Content P := ⟨key, value, none, [], [], 0⟩

/-- `gossip_content` has returned: every offer was sent and has ended (e2hs.rs:412-423), or the census failed. -/
def Content.done (c : Content P) : Bool :=
  c.asked.isSome && c.queue.isEmpty && c.offers.all fun o => o.result.isSome

/-- Offers that hold a permit. -/
def Content.inFlight (c : Content P) : Nat := (c.offers.filter fun o => o.result.isNone).length

/-- Where the task of a block is (e2hs.rs:281-321): not started, waiting for the first content, in the delay that
began at a time, waiting for the other contents, finished. -/
inductive Phase where
  | start
  | header
  | delay (since : Nat)
  | rest
  | done
deriving DecidableEq, Repr

/-- The task of a block (e2hs.rs:202-207) with its content tasks in the order in which they were started. -/
structure BlockTask (Hd Tx Rc Wd P : Type) where
  epoch : Nat
  tuple : Tuple Hd Tx Rc Wd
  phase : Phase
  contents : List (Content P)

/-- Counts of `GlobalOfferReport` (offer_report.rs:13-17). -/
structure Report where
  accepted : Nat
  declined : Nat
  failed : Nat
deriving DecidableEq, Repr

/-- `GlobalOfferReport::update` (offer_report.rs:20-31). -/
def Report.update (r : Report) : OfferTrace → Report
  | .success code => if code = .accepted then { r with accepted := r.accepted + 1 } else { r with declined := r.declined + 1 }
  | .failed => { r with failed := r.failed + 1 }

/-- A part of a file: an epoch and the range of blocks in it, or all of it. -/
abbrev Part := Nat × Option (Nat × Nat)

/-- The launcher (e2hs.rs:117-215): at the head of the loop, reading a file (what is left of it, and how many blocks),
waiting for the blocks of the epoch before the last one (`previous_task.await`), or for those of the last one; `latest` is
the epoch of `latest_task`. The block tasks of an epoch are those with that epoch: the epochs of the loop are the keys of
a map, so they are different. -/
inductive Main where
  | loop (todo : List Part) (latest : Option Nat)
  | reading (part : Part) (entries : List Entry) (count : Nat) (todo : List Part) (latest : Option Nat)
  | waitPrevious (previous : Nat) (latest : Nat) (todo : List Part)
  | waitLast (latest : Nat)
  | finished
  | panicked

structure State (Hd Tx Rc Wd P : Type) where
  main : Main
  blocks : List (BlockTask Hd Tx Rc Wd P)
  /-- free permits of `block_semaphore` and `offer_semaphore` -/
  blockPermits : Nat
  offerPermits : Nat
  clock : Nat
  report : Report
  /-- calls of `record_offer_result` of the census, latest first -/
  recorded : List (P × OfferTrace)

/-- `E2HSMemory::iter_tuples` before the first block is read (e2store/src/e2hs.rs:161-166): the entries after the version
and the number of blocks. -/
def openFile (bytes : Bytes) : Res (List Entry × Nat) :=
  (E2store.deserialize bytes).bind fun entries =>
    match entries.getLast? with
    | none => .err
    | some last => (Archive.readIndex [65552] last).map fun index => (entries.drop 1, index.count.toNat)

/-- The next block of the iterator (e2store/src/e2hs.rs:167-170): a wrong block aborts. -/
def nextTuple (env : Env Hd Tx Rc Wd) (entries : List Entry) : Option (Tuple Hd Tx Rc Wd) :=
  if entries.length < (e2hsFormat env.codecs).width then none
  else
    match (e2hsFormat env.codecs).read (entries.take (e2hsFormat env.codecs).width) with
    | .ok t => some t
    | _ => none

/-- e2hs.rs:191-196. -/
def inPart (env : Env Hd Tx Rc Wd) (t : Tuple Hd Tx Rc Wd) : Option (Nat × Nat) → Bool
  | none => true
  | some (start, stop) => !((number env t).toNat < start || (number env t).toNat > stop)

/-- The task of a block when it is spawned (e2hs.rs:204). -/
def newBlock (epoch : Nat) (t : Tuple Hd Tx Rc Wd) : BlockTask Hd Tx Rc Wd P := ⟨epoch, t, .start, []⟩

/-- All tasks of an epoch have ended (`join_all`, e2hs.rs:214). -/
def epochDone (blocks : List (BlockTask Hd Tx Rc Wd P)) (epoch : Nat) : Bool :=
  blocks.all fun b => b.epoch != epoch || b.phase == .done

/-- A step of the launcher (e2hs.rs:137-152, 168-229). -/
def stepMain (env : Env Hd Tx Rc Wd) (s : State Hd Tx Rc Wd P) : State Hd Tx Rc Wd P :=
  match s.main with
  | .loop [] none => { s with main := .finished }
  | .loop [] (some e) => { s with main := .waitLast e }
  | .loop (part :: todo) latest =>
    match env.download part.1 with
    | none => { s with main := .panicked }
    | some bytes =>
      match openFile bytes with
      | .ok (entries, count) => { s with main := .reading part entries count todo latest }
      | _ => { s with main := .panicked }
  | .reading part _ 0 todo none => { s with main := .loop todo (some part.1) }
  | .reading part _ 0 todo (some previous) => { s with main := .waitPrevious previous part.1 todo }
  | .reading part entries (n + 1) todo latest =>
    match nextTuple env entries with
    | none => { s with main := .panicked }
    | some t =>
      let next := Main.reading part (entries.drop (e2hsFormat env.codecs).width) n todo latest
      if !inPart env t part.2 then { s with main := next }
      else
        match validateTuple env t with
        | .abort => { s with main := .panicked }
        | .reject => { s with main := next }
        | .accept =>
          if s.blockPermits = 0 then s
          else { s with main := next, blockPermits := s.blockPermits - 1, blocks := s.blocks ++ [newBlock part.1 t] }
  | .waitPrevious previous latest todo =>
    if epochDone s.blocks previous then { s with main := .loop todo (some latest) } else s
  | .waitLast latest => if epochDone s.blocks latest then { s with main := .finished } else s
  | .finished => s
  | .panicked => s

/-- The contents of a block, in the order in which they are started (e2hs.rs:323-361). -/
def headerByHash (env : Env Hd Tx Rc Wd) (t : Tuple Hd Tx Rc Wd) : Content P :=
  .start (.headerByHash (blockHash env t))
    (HistoryValue.encodeHeaderWithProof env.lib t.headerWithProof.1 t.headerWithProof.2)
def headerByNumber (env : Env Hd Tx Rc Wd) (t : Tuple Hd Tx Rc Wd) : Content P :=
  .start (.headerByNumber (number env t))
    (HistoryValue.encodeHeaderWithProof env.lib t.headerWithProof.1 t.headerWithProof.2)
def blockBody (env : Env Hd Tx Rc Wd) (t : Tuple Hd Tx Rc Wd) : Content P :=
  .start (.blockBody (blockHash env t)) (HistoryValue.encodeBody env.lib t.body)
def blockReceipts (env : Env Hd Tx Rc Wd) (t : Tuple Hd Tx Rc Wd) : Content P :=
  .start (.blockReceipts (blockHash env t)) (HistoryValue.encodeReceipts env.lib t.receipts)

/-- A step of the task of a block (`gossip_block`, e2hs.rs:281-321), and whether it gives its permit back
(e2hs.rs:206). -/
def stepBlock (env : Env Hd Tx Rc Wd) (clock : Nat) (b : BlockTask Hd Tx Rc Wd P) :
    BlockTask Hd Tx Rc Wd P × Bool :=
  match b.phase with
  | .start => ({ b with phase := .header, contents := [headerByHash env b.tuple] }, false)
  | .header =>
    if b.contents.all Content.done then
      ({ b with phase := .delay clock, contents := b.contents ++ [headerByNumber env b.tuple] }, false)
    else (b, false)
  | .delay since =>
    if since + saturationDelay ≤ clock then
      ({ b with phase := .rest, contents := b.contents ++ [blockBody env b.tuple, blockReceipts env b.tuple] }, false)
    else (b, false)
  | .rest => if b.contents.all Content.done then ({ b with phase := .done }, true) else (b, false)
  | .done => (b, false)

/-- A step of the task of a content (e2hs.rs:376-411): the census is asked and answers `census`, or the next offer is
sent, for which a permit is taken (`true`). -/
def stepContent (clock permits : Nat) (census : Option (List P)) (c : Content P) : Content P × Bool :=
  match c.asked with
  | none => ({ c with asked := some census, queue := census.getD [] }, false)
  | some _ =>
    match c.queue with
    | [] => (c, false)
    | p :: queue =>
      if permits = 0 then (c, false)
      else ({ c with queue := queue, offers := c.offers ++ [⟨p, clock, none⟩] }, true)

/-- `OfferReport::update` (offer_report.rs:71-87): whether the report is printed, after the result of an offer was put
in. `total` is the number of peers that the census selected. -/
def reportDue (c : Content P) : Bool :=
  ((c.asked.getD none).getD []).length = (c.offers.filter fun o => o.result.isSome).length

/-- The end of an offer (e2hs.rs:449-505), with the peer and the trace. -/
def endOffer (clock : Nat) (reply : Reply) (k : Nat) (c : Content P) : Option (Content P × P × OfferTrace) :=
  match c.offers[k]? with
  | some ⟨peer, sent, none⟩ =>
    let c' := { c with offers := c.offers.set k ⟨peer, sent, some (reply.toTrace, clock)⟩ }
    some ({ c' with reports := if reportDue c' then c'.reports + 1 else c'.reports }, peer, reply.toTrace)
  | _ => none

/-- The steps: of the launcher, of the task of block `i`, of the `j`-th content of block `i` (with the answer of the census,
should it be asked), the end of its `k`-th offer, and time passing. -/
inductive Event (P : Type) where
  | main
  | block (i : Nat)
  | content (i j : Nat) (census : Option (List P))
  | reply (i j k : Nat) (r : Reply)
  | tick (d : Nat)

def step (env : Env Hd Tx Rc Wd) (s : State Hd Tx Rc Wd P) : Event P → State Hd Tx Rc Wd P
  | .main => stepMain env s
  | .block i =>
    match s.blocks[i]? with
    | none => s
    | some b =>
      let r := stepBlock env s.clock b
      { s with blocks := s.blocks.set i r.1, blockPermits := if r.2 then s.blockPermits + 1 else s.blockPermits }
  | .content i j census =>
    match s.blocks[i]? with
    | none => s
    | some b =>
      match b.contents[j]? with
      | none => s
      | some c =>
        let r := stepContent s.clock s.offerPermits census c
        { s with
          blocks := s.blocks.set i { b with contents := b.contents.set j r.1 }
          offerPermits := if r.2 then s.offerPermits - 1 else s.offerPermits }
  | .reply i j k reply =>
    match s.blocks[i]? with
    | none => s
    | some b =>
      match b.contents[j]? with
      | none => s
      | some c =>
        match endOffer s.clock reply k c with
        | none => s
        | some (c', peer, trace) =>
          { s with
            blocks := s.blocks.set i { b with contents := b.contents.set j c' }
            offerPermits := s.offerPermits + 1
            report := s.report.update trace
            recorded := (peer, trace) :: s.recorded }
  | .tick d => { s with clock := s.clock + d }

/-- `BlockRange` (e2hs.rs:519-523). -/
structure BlockRange where
  start : Nat
  stop : Option Nat

/-- `block_range_end` (e2hs.rs:120-130), for the epochs that have a file: `none` when there are none. -/
def rangeEnd (range : BlockRange) (files : List Nat) : Option Nat :=
  match range.stop with
  | some n => some n
  | none => files.max?.map fun e => (e + 1) * blocksPerFile - 1

/-- `launch` up to the loop (e2hs.rs:117-137): `order` is what becomes of the sorted epochs (the identity, or a
shuffle); the launcher panics when the end of the range cannot be told, or where the split of the range does. -/
def launch (env : Env Hd Tx Rc Wd) (range : BlockRange) (files : List Nat) (order : List Part → List Part) :
    State Hd Tx Rc Wd P :=
  let main :=
    match rangeEnd range files with
    | none => Main.panicked
    | some stop =>
      match Epochs.blockRangeToEpochs range.start stop with
      | none => .panicked
      | some parts => .loop (order parts) none
  ⟨main, [], env.offerLimit, env.offerLimit, 0, ⟨0, 0, 0⟩, []⟩

/-- An execution. -/
def run (env : Env Hd Tx Rc Wd) (s : State Hd Tx Rc Wd P) (es : List (Event P)) : State Hd Tx Rc Wd P :=
  es.foldl (step env) s

end Verif.E2hsBridge
