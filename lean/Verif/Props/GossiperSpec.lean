import Verif.Model.Gossiper

/-! # Reading a log of the gossiper

What the statements of C87 are about: the calls that were made, and for each task what the log says. -/

namespace Verif.Props.GossiperLife
open Verif Verif.Gossiper
open Verif.Census (OfferTrace)
open Verif.ContentKey (Legacy)

/-- A call of the gossiper. -/
inductive Call where
  | bundle (blocks : List Block)
  | final (blocks : Option (List (Option Built)))
deriving DecidableEq, Repr

/-- The calls of a schedule, in order. -/
def calls : List Event → List Call
  | [] => []
  | .bundle b :: es => .bundle b :: calls es
  | .final b :: es => .final b :: calls es
  | _ :: es => calls es

/-- Call `j` is for recent blocks. -/
def isBundle (evs : List Event) (j : Nat) : Bool :=
  match (calls evs)[j]? with
  | some (.bundle _) => true
  | _ => false

/-- Call `j` is for blocks of a final period. -/
def isFinal (evs : List Event) (j : Nat) : Bool :=
  match (calls evs)[j]? with
  | some (.final _) => true
  | _ => false

/-- The time that has passed, in milliseconds. -/
def elapsed : List Event → Nat
  | [] => 0
  | .tick d :: es => d + elapsed es
  | _ :: es => elapsed es

/-- The result of an offer: what the peer answered, and a failure if there was an error or no answer in time. -/
def resultOf : Reply → OfferTrace
  | .answered r => r
  | _ => .failed

abbrev Log := List (Nat × Effect)

/-- The choices of peers that a task has got. -/
def chosen (t : Tid) (log : Log) : List (List Id) :=
  log.filterMap fun x =>
    match x.2 with
    | .chose u ps => if u = t then some ps else none
    | _ => none

/-- The offers of a task: to whom, and what. -/
def offered (t : Tid) (log : Log) : List (Id × List Item) :=
  log.filterMap fun x =>
    match x.2 with
    | .offer u p items => if u = t then some (p, items) else none
    | _ => none

/-- The peers whose offer from this task is over. -/
def over (t : Tid) (log : Log) : List Id :=
  log.filterMap fun x =>
    match x.2 with
    | .ended u p _ => if u = t then some p else none
    | _ => none

/-- The number of offers sent by calls of some kind. -/
def sent (kind : Nat → Bool) (log : Log) : Nat :=
  log.countP fun x =>
    match x.2 with
    | .offer u _ _ => kind u.job
    | _ => false

/-- The number of offers of calls of some kind that are over. -/
def closed (kind : Nat → Bool) (log : Log) : Nat :=
  log.countP fun x =>
    match x.2 with
    | .ended u _ _ => kind u.job
    | _ => false

/-- Peers were chosen once for the task, each of them was offered exactly these items, once for each
time it was chosen, and all of these offers are over. -/
def Delivered (log : Log) (t : Tid) (items : List Item) : Prop :=
  ∃ peers, chosen t log = [peers] ∧ offered t log = peers.map (fun p => (p, items)) ∧
    (over t log).Perm peers

/-- The first blocks of a list, up to the first that is missing. -/
def upToGap : List (Option Built) → List Built
  | [] => []
  | none :: _ => []
  | some b :: l => b :: upToGap l

/-- The item that the content task `i` of a call offers. -/
def content (c : Call) (i : Nat) : Option Item :=
  match c with
  | .bundle blocks =>
    if i < blocks.length then blocks[i]?.map fun b => ⟨.blockBody b.hash, b.body⟩
    else blocks[i - blocks.length]?.map fun b => ⟨.blockReceipts b.hash, b.receipts⟩
  | .final none => none
  | .final (some l) =>
    (upToGap l)[i / 2]?.map fun b =>
      if i % 2 = 0 then ⟨.headerByHash b.hash, b.value⟩ else ⟨.headerByNumber b.number, b.value⟩

/-- What the task `t` of a call may offer: the headers of the bundle all at once, or one item. -/
def Right (c : Call) (t : Tid) (items : List Item) : Prop :=
  match t.series with
  | true => t.task = 0 ∧ ∃ blocks, c = .bundle blocks ∧
      items = blocks.map fun b => ⟨.ephemeralOffer b.hash, b.header⟩
  | false => ∃ it, content c t.task = some it ∧ items = [it]

/-- The length of the value that a content task offers. -/
def valueSize (evs : List Event) (t : Tid) : Nat :=
  match (calls evs)[t.job]? with
  | none => 0
  | some c =>
    match content c t.task with
    | none => 0
    | some it => it.value.length

/-- The offers of single items that are over: to whom, how long the value is, with which result. -/
def contentEnds (evs : List Event) (log : Log) : List (Id × Nat × OfferTrace) :=
  log.filterMap fun x =>
    match x.2 with
    | .ended t p r => if t.series then none else some (p, valueSize evs t, r)
    | _ => none

/-- The results that are given to the census. -/
def recorded (log : Log) : List (Id × Nat × OfferTrace) :=
  log.filterMap fun x =>
    match x.2 with
    | .record p n r => some (p, n, r)
    | _ => none

/-- No new call and no wait; at most `m` peers are chosen. -/
def Works (m : Nat) : Event → Bool
  | .bundle _ => false
  | .final _ => false
  | .choose _ _ (some ps) => decide (ps.length ≤ m)
  | _ => true

/-- An event that is not the passing of time. -/
def isMove : Event → Bool
  | .tick _ => false
  | _ => true

/-- A task whose offers are all over. -/
def TaskOver (t : Task) : Prop := t.waiting = some [] ∧ t.flying = []

/-- A call that has returned, or panicked with its tasks over. -/
def JobOver (job : Job) : Prop :=
  job.stage = .done ∨ (job.stage = .aborted ∧ ∀ t ∈ job.tasks, TaskOver t)

end Verif.Props.GossiperLife
