import Verif.Model.Census
import Verif.Model.ContentKey

/-! # The gossiper of the ephemeral history bridge
(bin/portal-bridge/src/bridge/ephemeral_history/gossiper.rs)

The gossiper is called for bundles of recent blocks and for blocks of a final period, any number of
them at a time. Its tasks run concurrently and share two semaphores. Here a schedule is a list of
events, each of which is something that a task does next; every schedule of the tasks is such a list.

Simplifications: a peer is its node id. Headers, bodies and receipts are opaque; their encodings and
the block hash are given. A permit may go to any waiting task (tokio hands them out in order). Tasks
that panic while they send an offer are left out, as the calls they make do not panic. The result of an
offer of several headers is a result like that of other offers. -/

namespace Verif.Gossiper
open Verif.Census (OfferTrace)
open Verif.ContentKey (Legacy)

/-- A key and a value to be offered. -/
structure Item where
  key : Legacy
  value : Bytes
deriving DecidableEq, Repr

/-- A block of a bundle (ephemeral_bundle.rs:21): hash of the header, and encodings of header offer,
body and receipts. -/
structure Block where
  hash : Id
  header : Bytes
  body : Bytes
  receipts : Bytes
deriving DecidableEq, Repr

/-- A block of a final period with its header and proof as built (gossiper.rs:141-151). -/
structure Built where
  hash : Id
  number : UInt64
  value : Bytes
deriving DecidableEq, Repr

/-- The limits that the bridge gives to `Gossiper::new` for its option `--offer-limit`
(bin/portal-bridge/src/main.rs:117-126): offers at the head of the chain, other offers. -/
def limits (offerLimit : Nat) : Nat × Nat := (offerLimit, offerLimit / 2)

/-- The two semaphores (gossiper.rs:46-48). -/
inductive Pool where
  | head | final
deriving DecidableEq, Repr

/-- A call of `gossip_content` or `gossip_content_header_series` (gossiper.rs:181-227, 303-348): what
is offered, the semaphore, whether it is the series of headers, the peers that are still to be offered
it (`none`: they are not chosen yet), and the offers under way with the time of their start. -/
structure Task where
  items : List Item
  pool : Pool
  series : Bool
  waiting : Option (List Id)
  flying : List (Id × Nat)
deriving DecidableEq, Repr

/-- A task before its peers are chosen. -/
def Task.new (items : List Item) (pool : Pool) (series : Bool) : Task := ⟨items, pool, series, none, []⟩

/-- The task has returned: everybody was asked and all offers are over (gossiper.rs:216-226, 337-347). -/
def Task.isDone (t : Task) : Bool := t.waiting == some [] && t.flying.isEmpty

/-- Where a call of the gossiper is. `aborted`: it panicked; the tasks it has started go on. -/
inductive Stage where
  | headers
  | resting (since : Nat)
  | contents
  | done
  | aborted
deriving DecidableEq, Repr

/-- A call of `gossip_ephemeral_bundle` or `gossiped_non_ephemeral_headers`: its stage, the tasks of
this stage, and what is offered in the stage `contents`. -/
structure Job where
  stage : Stage
  tasks : List Task
  contents : List Item
deriving DecidableEq, Repr

/-- The gossiper (gossiper.rs:38-49) and all that is running: the clock in milliseconds, the free
permits, the calls. -/
structure State where
  clock : Nat
  headFree : Nat
  finalFree : Nat
  jobs : List Job
deriving DecidableEq, Repr

/-- `Gossiper::new` (gossiper.rs:52-66). -/
def State.new (headLimit finalLimit : Nat) : State := ⟨0, headLimit, finalLimit, []⟩

/-- `HEADER_SATURATION_DELAY` (bridge/constants.rs:3). -/
def headerSaturationDelay : Nat := 2 * 1000

/-- `SERVE_BLOCK_TIMEOUT` (bridge/constants.rs:4). -/
def serveBlockTimeout : Nat := 120 * 1000

/-- The header series (gossiper.rs:84-89, 307-314). -/
def seriesItems (blocks : List Block) : List Item :=
  blocks.map fun b => ⟨.ephemeralOffer b.hash, b.header⟩

/-- Bodies, then receipts (gossiper.rs:101-110). -/
def bundleItems (blocks : List Block) : List Item :=
  blocks.map (fun b => ⟨.blockBody b.hash, b.body⟩) ++
    blocks.map (fun b => ⟨.blockReceipts b.hash, b.receipts⟩)

/-- `gossip_ephemeral_bundle` up to the task for the headers (gossiper.rs:74-92). -/
def bundleJob (blocks : List Block) : Job :=
  ⟨.headers, [Task.new (seriesItems blocks) .head true], bundleItems blocks⟩

/-- The blocks before the first whose header cannot be built (gossiper.rs:140-143). -/
def builtPrefix : List (Option Built) → List Built
  | some b :: l => b :: builtPrefix l
  | _ => []

/-- Headers by hash and by number (gossiper.rs:145-157). -/
def finalItems (blocks : List Built) : List Item :=
  blocks.flatMap fun b => [⟨.headerByHash b.hash, b.value⟩, ⟨.headerByNumber b.number, b.value⟩]

/-- The tasks of the stage `contents` (gossiper.rs:100-110, 139-158). -/
def contentTasks (pool : Pool) (items : List Item) : List Task :=
  items.map fun i => Task.new [i] pool false

/-- `gossiped_non_ephemeral_headers` (gossiper.rs:123-161). `none`: the beacon state is not available,
which panics, as does a header that cannot be built. -/
def finalJob (blocks : Option (List (Option Built))) : Job :=
  match blocks with
  | none => ⟨.aborted, [], []⟩
  | some l =>
    let items := finalItems (builtPrefix l)
    ⟨if l.contains none then .aborted else .contents, contentTasks .final items, items⟩

/-- How an offer ends (gossiper.rs:251-268): the overlay answers, gives an error, or does not answer
in time. -/
inductive Reply where
  | answered (trace : OfferTrace)
  | error
  | timedOut
deriving DecidableEq, Repr

/-- gossiper.rs:251-268. -/
def Reply.trace : Reply → OfferTrace
  | .answered t => t
  | .error => .failed
  | .timedOut => .failed

/-- What happens next. `j` is the call, `i` the task of its current stage, `k` the offer under way. -/
inductive Event where
  | bundle (blocks : List Block)
  | final (blocks : Option (List (Option Built)))
  | choose (j i : Nat) (peers : Option (List Id))
  | send (j i : Nat)
  | finish (j i k : Nat) (reply : Reply)
  | rest (j : Nat)
  | wake (j : Nat)
  | close (j : Nat)
  | tick (d : Nat)
deriving DecidableEq, Repr

/-- A task: the call, whether it is the task of the header series, and its number. -/
structure Tid where
  job : Nat
  series : Bool
  task : Nat
deriving DecidableEq, Repr

/-- What can be seen from outside. -/
inductive Effect where
  /-- The census chose these peers for the task. -/
  | chose (t : Tid) (peers : List Id)
  /-- An offer is sent. -/
  | offer (t : Tid) (peer : Id) (items : List Item)
  /-- The offer is over. -/
  | ended (t : Tid) (peer : Id) (trace : OfferTrace)
  /-- `record_offer_result` of the census for the legacy history subnetwork (gossiper.rs:270-276). -/
  | record (peer : Id) (size : Nat) (trace : OfferTrace)
  /-- The call returns. -/
  | finished (j : Nat)
deriving DecidableEq, Repr

/-- The free permits of a semaphore. -/
def State.free (s : State) : Pool → Nat
  | .head => s.headFree
  | .final => s.finalFree

/-- `acquire_owned` (gossiper.rs:202-205, 322-327). -/
def State.take (s : State) : Pool → State
  | .head => { s with headFree := s.headFree - 1 }
  | .final => { s with finalFree := s.finalFree - 1 }

/-- `drop(offer_permit)` (gossiper.rs:295, 389). -/
def State.give (s : State) : Pool → State
  | .head => { s with headFree := s.headFree + 1 }
  | .final => { s with finalFree := s.finalFree + 1 }

/-- The task with number `i` of the current stage of call `j`. -/
def State.task (s : State) (j i : Nat) : Option Task :=
  match s.jobs[j]? with
  | none => none
  | some job => job.tasks[i]?

/-- Replacing a task. -/
def State.setTask (s : State) (j i : Nat) (t : Task) : State :=
  match s.jobs[j]? with
  | none => s
  | some job => { s with jobs := s.jobs.set j { job with tasks := job.tasks.set i t } }

/-- Replacing a call. -/
def State.setJob (s : State) (j : Nat) (job : Job) : State := { s with jobs := s.jobs.set j job }

/-- `select_peers` and `select_random_peers` (gossiper.rs:187-193, 316-319): nobody gets an offer when
the census fails. -/
def chooseStep (s : State) (j i : Nat) (peers : Option (List Id)) : Option (State × List Effect) :=
  match s.task j i with
  | none => none
  | some t =>
    match t.waiting with
    | none =>
      some (s.setTask j i { t with waiting := some (peers.getD []) },
        [.chose ⟨j, t.series, i⟩ (peers.getD [])])
    | some _ => none

/-- A permit is acquired for the next peer, and the offer is sent (gossiper.rs:196-215, 241-248,
321-336, 358-363). -/
def sendStep (s : State) (j i : Nat) : Option (State × List Effect) :=
  match s.task j i with
  | none => none
  | some t =>
    match t.waiting with
    | some (p :: w) =>
      if s.free t.pool = 0 then none
      else
        some ((s.take t.pool).setTask j i
            { t with waiting := some w, flying := t.flying ++ [(p, s.clock)] },
          [.offer ⟨j, t.series, i⟩ p t.items])
    | _ => none

/-- The number of bytes of the value (gossiper.rs:239). -/
def sizeOf (items : List Item) : Nat := (items.map (·.value.length)).sum

/-- An offer ends (gossiper.rs:249-297, 364-391): its result is recorded unless it was the series of
headers, and the permit is released. -/
def finishStep (s : State) (j i k : Nat) (reply : Reply) : Option (State × List Effect) :=
  match s.task j i with
  | none => none
  | some t =>
    match t.flying[k]? with
    | none => none
    | some (p, since) =>
      if reply = .timedOut ∧ s.clock < since + serveBlockTimeout then none
      else
        some ((s.give t.pool).setTask j i { t with flying := t.flying.eraseIdx k },
          .ended ⟨j, t.series, i⟩ p reply.trace ::
            (if t.series then [] else [.record p (sizeOf t.items) reply.trace]))

/-- The header series is done and the delay begins (gossiper.rs:92-98). -/
def restStep (s : State) (j : Nat) : Option (State × List Effect) :=
  match s.jobs[j]? with
  | none => none
  | some job =>
    if job.stage = .headers ∧ job.tasks.all Task.isDone = true then
      some (s.setJob j { job with stage := .resting s.clock }, [])
    else none

/-- After the delay the tasks for bodies and receipts are started (gossiper.rs:98-110). -/
def wakeStep (s : State) (j : Nat) : Option (State × List Effect) :=
  match s.jobs[j]? with
  | none => none
  | some job =>
    match job.stage with
    | .resting since =>
      if since + headerSaturationDelay ≤ s.clock then
        some (s.setJob j { job with stage := .contents, tasks := contentTasks .head job.contents }, [])
      else none
    | _ => none

/-- All tasks are done and the call returns (gossiper.rs:113-119, 160). -/
def closeStep (s : State) (j : Nat) : Option (State × List Effect) :=
  match s.jobs[j]? with
  | none => none
  | some job =>
    if job.stage = .contents ∧ job.tasks.all Task.isDone = true then
      some (s.setJob j { job with stage := .done }, [.finished j])
    else none

/-- One event; `none` if it cannot be next. -/
def step (s : State) : Event → Option (State × List Effect)
  | .bundle blocks => some ({ s with jobs := s.jobs ++ [bundleJob blocks] }, [])
  | .final blocks => some ({ s with jobs := s.jobs ++ [finalJob blocks] }, [])
  | .choose j i peers => chooseStep s j i peers
  | .send j i => sendStep s j i
  | .finish j i k reply => finishStep s j i k reply
  | .rest j => restStep s j
  | .wake j => wakeStep s j
  | .close j => closeStep s j
  | .tick d => some ({ s with clock := s.clock + d }, [])

/-- A schedule, with the effects and their times. -/
def run (s : State) : List Event → Option (State × List (Nat × Effect))
  | [] => some (s, [])
  | e :: es =>
    match step s e with
    | none => none
    | some r =>
      match run r.1 es with
      | none => none
      | some t => some (t.1, r.2.map (fun x => (s.clock, x)) ++ t.2)

end Verif.Gossiper
