import Verif.Model.Bytes

/-!
# uTP streams and their counters (`crates/portalnet/src/utp/controller.rs`, `crates/metrics/src/overlay.rs`)

Any number of streams run at once; between two steps of one of them any others may take steps. What the uTP socket answers
to a stream is given with it (`Fate`). The counters are atomic. Streams that are dropped before they end (when the program
ends) are left out, and so are the texts for the log and the labels of the subnetwork, of which each has its own counters.
-/

namespace Verif.Streams

inductive Dir where
  | inbound
  | outbound
deriving DecidableEq, Repr

/-- `UtpConnectionSide` (controller.rs:46-49). -/
inductive Side where
  | connect
  | accept
deriving DecidableEq, Repr

/-- `UtpOutcomeLabel` (crates/metrics/src/labels.rs). -/
inductive Outcome where
  | success
  | failedConnection
  | failedDataTx
  | failedShutdown
deriving DecidableEq, Repr

/-- What the uTP socket answers: whether the connection comes about, the bytes read up to the end of the stream or an error,
the number of bytes written or an error, whether the stream could be closed. -/
structure Fate where
  connected : Bool
  read : Option Bytes
  written : Option Nat
  closed : Bool
deriving DecidableEq, Repr

/-- What the caller gives: direction, side, the pair of ids of the connection, the peer and, for an outbound stream, the
data. -/
structure Args where
  dir : Dir
  side : Side
  cid : Nat × Nat
  peer : Nat
  data : Bytes
deriving DecidableEq, Repr

inductive Phase where
  | connecting
  | moving
  | closing
  /-- ended; inbound: the data, outbound: nothing -/
  | ended (o : Outcome) (data : Option Bytes)
deriving DecidableEq, Repr

structure Task where
  args : Args
  fate : Fate
  phase : Phase
deriving DecidableEq, Repr

/-- A call of the uTP socket. -/
inductive Call where
  | connect (cid : Nat × Nat) (peer : Nat)
  | accept (cid : Nat × Nat) (peer : Nat)
  | read
  | write (data : Bytes)
  | close
deriving DecidableEq, Repr

/-- The counters (overlay.rs:22-28): ended streams by direction and outcome, and the gauge of active streams. -/
structure Counters where
  outcomes : Dir → Outcome → Nat
  active : Dir → Int

def Counters.zero : Counters := ⟨fun _ _ => 0, fun _ => 0⟩

/-- `report_utp_active_inc` (overlay.rs:158-164). -/
def Counters.inc (c : Counters) (d : Dir) : Counters :=
  { c with active := fun d' => if d' = d then c.active d' + 1 else c.active d' }

/-- `report_utp_active_dec` (overlay.rs:166-172). -/
def Counters.dec (c : Counters) (d : Dir) : Counters :=
  { c with active := fun d' => if d' = d then c.active d' - 1 else c.active d' }

/-- `report_utp_outcome` (overlay.rs:149-156). -/
def Counters.report (c : Counters) (d : Dir) (o : Outcome) : Counters :=
  Counters.dec { c with outcomes := fun d' o' => if d' = d ∧ o' = o then c.outcomes d' o' + 1 else c.outcomes d' o' } d

structure State where
  tasks : List Task
  counters : Counters
  /-- calls of the socket, with the number of the stream -/
  calls : List (Nat × Call)

def init : State := ⟨[], .zero, []⟩

inductive Event where
  /-- one of the four functions of controller.rs:116-152 is called -/
  | start (a : Args) (f : Fate)
  /-- stream `i` gets the answer it waits for and goes on -/
  | advance (i : Nat)
deriving DecidableEq, Repr

/-- The start of a stream (controller.rs:160-175, 210-225). -/
def opening (a : Args) : Call :=
  match a.side with
  | .connect => .connect a.cid a.peer
  | .accept => .accept a.cid a.peer

/-- The next step of a stream: its new phase and the call it makes. Inbound: controller.rs:176-200; outbound:
controller.rs:226-291. -/
def next (t : Task) : Phase × Option Call :=
  match t.phase, t.args.dir with
  | .connecting, .inbound => if t.fate.connected then (.moving, some .read) else (.ended .failedConnection none, none)
  | .connecting, .outbound =>
    if t.fate.connected then (.moving, some (.write t.args.data)) else (.ended .failedConnection none, none)
  | .moving, .inbound =>
    match t.fate.read with
    | none => (.ended .failedDataTx none, none)
    | some data => (.ended .success (some data), none)
  | .moving, .outbound =>
    match t.fate.written with
    | none => (.ended .failedDataTx none, none)
    | some n => if n ≠ t.args.data.length then (.ended .failedDataTx none, none) else (.closing, some .close)
  | .closing, _ => if t.fate.closed then (.ended .success none, none) else (.ended .failedShutdown none, none)
  | .ended o d, _ => (.ended o d, none)

def State.advance (s : State) (i : Nat) (t : Task) : State :=
  let (p, call) := next t
  { tasks := s.tasks.set i { t with phase := p }
    counters :=
      match t.phase, p with
      | .ended _ _, _ => s.counters
      | _, .ended o _ => s.counters.report t.args.dir o
      | _, _ => s.counters
    calls := s.calls ++ (call.map fun c => (i, c)).toList }

def step (s : State) : Event → State
  | .start a f =>
    { tasks := s.tasks ++ [⟨a, f, .connecting⟩]
      counters := s.counters.inc a.dir
      calls := s.calls ++ [(s.tasks.length, opening a)] }
  | .advance i =>
    match s.tasks[i]? with
    | none => s
    | some t => s.advance i t

def run (evs : List Event) : State := evs.foldl step init

/-- What the caller of an inbound stream gets (controller.rs:154-201): nothing yet, an error, or the data. -/
def Task.inboundResult (t : Task) : Option (Option Bytes) :=
  match t.phase with
  | .ended _ d => some d
  | _ => none

/-- What the caller of an outbound stream gets (controller.rs:203-292). -/
def Task.outboundResult (t : Task) : Option Bool :=
  match t.phase with
  | .ended .success _ => some true
  | .ended _ _ => some false
  | _ => none

/-- The numbers in `get_utp_summary` (overlay.rs:206-258): active, success, failed, each as sum, inbound and outbound. The
gauge is read as `u64`. -/
def summary (c : Counters) : List (Nat × Nat × Nat) :=
  let act d := (BitVec.ofInt 64 (c.active d)).toNat
  let failed d := c.outcomes d .failedConnection + c.outcomes d .failedDataTx + c.outcomes d .failedShutdown
  [ (act .inbound + act .outbound, act .inbound, act .outbound),
    (c.outcomes .inbound .success + c.outcomes .outbound .success, c.outcomes .inbound .success, c.outcomes .outbound .success),
    (c.outcomes .inbound .failedConnection + c.outcomes .outbound .failedConnection
      + c.outcomes .inbound .failedDataTx + c.outcomes .outbound .failedDataTx
      + c.outcomes .inbound .failedShutdown + c.outcomes .outbound .failedShutdown, failed .inbound, failed .outbound) ]

end Verif.Streams
