import Verif.Props.QuerySpec
import Verif.Model.Lookup

/-! # Specification: content lookups

A history is the list of what happened during a lookup, each event with what others see of it. -/

namespace Verif.Props.Lookups
open Verif.Lookup
open Verif.Query (Config QState)

abbrev History := List (Ev × List Out)

/-- This node sent these bytes as the content. -/
def SentContent (h : History) (id : Id) (b : Bytes) : Prop :=
  ∃ x ∈ h, ∃ time source, x.1 = .report time source (.content b) ∧ source.id = id

/-- This node announced the content over uTP. -/
def SentConnection (h : History) (id : Id) : Prop :=
  ∃ x ∈ h, ∃ time source cid, x.1 = .report time source (.connectionId cid) ∧ source.id = id

/-- This node named that node. -/
def Named (h : History) (id other : Id) : Prop :=
  ∃ x ∈ h, ∃ time source l, x.1 = .report time source (.enrs l) ∧ source.id = id ∧ ∃ e ∈ l, e.id = other

/-- A task that looked at `content`, which `id` sent or transferred, saw the node like this. -/
def Examined (h : History) (id : Id) (utp : Bool) (content : Bytes) (see : Lookup.Seen) : Prop :=
  ∃ x ∈ h, ∃ n fetch, x.1 = .task n fetch see ∧
    ((utp = false ∧ SentContent h id content) ∨ (utp = true ∧ SentConnection h id ∧ fetch = .data content))

/-- Content that a lookup may return: the validator accepted exactly these bytes of this node, or the node's own store has
them when the content of this node arrives. -/
def Confirmed (h : History) (id : Id) (utp : Bool) (content : Bytes) : Prop :=
  ∃ sent see, Examined h id utp sent see ∧
    (see.stored = some content ∨ (see.stored = none ∧ content = sent ∧ see.verdict sent ≠ .invalid))

/-- What justifies the report that a node failed. -/
def FailedBy (h : History) (id : Id) : FailKind → Prop
  | .utpTransferFailed => SentConnection h id ∧ ∃ x ∈ h, ∃ n see, x.1 = .task n .streamFailed see
  | .invalidContent =>
    (SentConnection h id ∧ ∃ x ∈ h, ∃ n see, x.1 = .task n .badPayload see) ∨
    ∃ utp sent see, Examined h id utp sent see ∧ see.stored = none ∧ see.verdict sent = .invalid
  | .utpConnectionFailed => False

/-- What a poll did, as `Record.see` wants it. -/
def outcome (o : List Out) : QState :=
  match o with
  | .request e :: _ => .waiting (some e.id)
  | .answer _ :: _ => .finished
  | _ => .waiting none

/-- An event for the record of who was asked and who answered (`Record`, C09). -/
def seen (self : Id) : Ev × List Out → Props.Seen
  | (.poll now _, o) => .polled now (outcome o)
  | (.report _ source (.enrs l), _) => .success source.id ((l.filter fun e => e.id ≠ self).map Enr.id)
  | (.report _ source _, _) => .success source.id []
  | _ => .other

/-- Who is known, who was asked (until when), who has answered, and from whom an answer is awaited. -/
def record (c : Ctx) (peers : List Enr) (h : History) : Record :=
  (h.map (seen c.self.id)).foldl (Record.see c.cfg) (Record.start c.cfg (peers.map Enr.id))

/-- The nodes among `l` that are named for the first time. -/
def firstNamed (self : Id) : List Id → List Id → List Id
  | _, [] => []
  | known, id :: l => if id = self ∨ id ∈ known then firstNamed self known l else id :: firstNamed self (known ++ [id]) l

/-- The nodes named so far. -/
def named (self : Id) (peers : List Enr) (h : History) : List Id :=
  h.foldl (fun known x =>
    match x.1 with
    | .report _ _ (.enrs l) => known ++ firstNamed self known (l.map Enr.id)
    | _ => known) (peers.map Enr.id)

/-- What the trace says about the answer of `id`: the time of its first answer, and the nodes it was the first to name; for
content, the time of the last. -/
def listed (self : Id) (time : Nat) (peers : List Enr) (id : Id) : History → Option (Nat × List Id) :=
  fun h => (h.foldl (fun (st : List Id × Option (Nat × List Id)) x =>
    match x.1 with
    | .report t source (.enrs l) =>
      let new := firstNamed self st.1 (l.map Enr.id)
      (st.1 ++ new, if source.id = id then some ((st.2.getD (t, [])).1, (st.2.getD (t, [])).2 ++ new) else st.2)
    | .report t source _ => (st.1, if source.id = id then some (t, []) else st.2)
    | _ => st) (peers.map Enr.id, if id = self then some (time, peers.map Enr.id) else none)).2

/-- Everything in a trace is about the lookup: nodes that appear have an entry with their own ENR and distance. -/
structure Closed (t : Trace) : Prop where
  own : ∀ id i, t.metadata id = some i → i.enr.id = id ∧ i.distance = xorDistance id t.target
  responses : ∀ id r, t.responses id = some r → (t.metadata id).isSome ∧ ∀ j ∈ r.respondedWith, (t.metadata j).isSome
  failures : ∀ id f, t.failures id = some f → (t.metadata id).isSome
  cancelled : ∀ id ∈ t.cancelled, (t.metadata id).isSome
  received : ∀ id, t.receivedFrom = some id → (t.metadata id).isSome

/-- The ENRs that came up: the node's own, those of the peers at the start, of who answered, and those that were named. -/
def CameUp (self : Enr) (peers : List Enr) (h : History) (e : Enr) : Prop :=
  e = self ∨ e ∈ peers ∨ ∃ x ∈ h, ∃ time source r, x.1 = .report time source r ∧
    (e = source ∨ ∃ l, r = .enrs l ∧ e ∈ l)

def askedOf : Out → Option Id
  | .request e => some e.id
  | _ => none

def isOffer : Out → Bool
  | .offer _ _ => true
  | _ => false

/-- The nodes that were asked, in order. -/
def requested (h : History) : List Id := h.flatMap fun x => x.2.filterMap askedOf

/-- The content a task gets to see, if any. -/
def atHand (t : Task) (fetch : Fetch) : Option Bytes :=
  match t.what, fetch with
  | .content b, _ => some b
  | .connection _, .data b => some b
  | .connection _, _ => none

/-- The time of the first poll. -/
def firstPoll : History → Option Nat
  | [] => none
  | (.poll now _, _) :: _ => some now
  | _ :: h => firstPoll h

/-- What discv5 and the routing table know about a node is an ENR of that node. -/
def Sane (es : List Ev) : Prop := ∀ now known, Ev.poll now known ∈ es → ∀ id e, known id = some e → e.id = id

end Verif.Props.Lookups
