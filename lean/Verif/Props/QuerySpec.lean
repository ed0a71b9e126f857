import Verif.Model.Query

/-!
What a caller of a lookup sees.  This file does not look inside a lookup: it is built from the
calls that were made and from what `poll` returned.
-/

namespace Verif.Props
open Verif Verif.Query

/-- A thing that happened to a lookup, as its caller sees it. -/
inductive Seen where
  /-- it was polled at the time `now` and returned `st` -/
  | polled (now : Nat) (st : QState)
  /-- a success of this peer, with the peers it named, was reported to it -/
  | success (peer : Id) (named : List Id)
  /-- a failure of this peer was reported to it -/
  | failure (peer : Id)
  /-- something that is not a call on the lookup -/
  | other

/-- The caller's record of a lookup. -/
structure Record where
  /-- the peers the lookup was told about -/
  known : List Id
  /-- the peers it handed out, each with the time until which an answer is awaited, in order -/
  asked : List (Id × Nat)
  /-- the peers whose success was reported after they were handed out -/
  answered : List Id
  /-- the peers whose failure was reported after they were handed out -/
  failed : List Id
  /-- the handed out peers that neither answered nor failed, and for which no poll has seen the
  waiting time pass -/
  pending : List (Id × Nat)
  /-- `poll` has returned `Finished` -/
  over : Bool

/-- The peers that were handed out. -/
def Record.askedIds (r : Record) : List Id := r.asked.map (·.1)

/-- Is the report of `peer` the first one since it was handed out? -/
def Record.expects (r : Record) (peer : Id) : Bool :=
  !r.over && r.askedIds.contains peer && !r.answered.contains peer && !r.failed.contains peer

/-- Nothing has happened yet: the lookup knows the first `numResults` of the given peers. -/
def Record.start (cfg : Config) (known : List Id) : Record :=
  ⟨known.take cfg.numResults, [], [], [], [], false⟩

/-- The record after one more thing happened. -/
def Record.see (cfg : Config) (r : Record) : Seen → Record
  | .polled now st =>
    if r.over then r
    else
      let awaited := r.pending.filter (fun x => decide (now < x.2))
      match st with
      | .finished => { r with pending := awaited, over := true }
      | .waiting (some peer) =>
        { r with asked := r.asked ++ [(peer, now + cfg.peerTimeout)]
                 pending := awaited ++ [(peer, now + cfg.peerTimeout)] }
      | _ => { r with pending := awaited }
  | .success peer named =>
    if r.expects peer then
      { r with answered := r.answered ++ [peer], known := r.known ++ named
               pending := r.pending.filter (fun x => decide (x.1 ≠ peer)) }
    else r
  | .failure peer =>
    if r.expects peer then
      { r with failed := r.failed ++ [peer]
               pending := r.pending.filter (fun x => decide (x.1 ≠ peer)) }
    else r
  | .other => r

/-- A call on a node lookup, with what it returned, as seen by the caller. -/
def nodeSeen : Event × Option QState → Seen
  | (.poll now, some st) => .polled now st
  | (.success peer named, _) => .success peer named
  | (.failure peer, _) => .failure peer
  | _ => .other

/-- The caller's record of a node lookup. -/
def nodeRecord (cfg : Config) (known : List Id) (hist : List (Event × Option QState)) : Record :=
  (hist.map nodeSeen).foldl (Record.see cfg) (Record.start cfg known)

/-- An event of a content lookup as seen by the caller: content, or a connection id, names no
peers. -/
def contentSeen : CEvent × Option QState → Seen
  | (.poll now, some st) => .polled now st
  | (.success peer (.closestNodes named), _) => .success peer named
  | (.success peer _, _) => .success peer []
  | (.failure peer, _) => .failure peer
  | _ => .other

/-- The caller's record of a content lookup. -/
def contentRecord (cfg : Config) (known : List Id) (hist : List (CEvent × Option QState)) :
    Record :=
  (hist.map contentSeen).foldl (Record.see cfg) (Record.start cfg known)

/-- Does this event bring content (or a connection id to fetch it from)?  It counts if the record
expects the answer. -/
def contentReport (r : Record) : CEvent → List Id
  | .success _ (.closestNodes _) => []
  | .success peer _ => if r.expects peer then [peer] else []
  | _ => []

/-- The peers whose answer brought content, in the order of their answers. -/
def contentReports (cfg : Config) : Record → List (CEvent × Option QState) → List Id
  | _, [] => []
  | r, x :: rest => contentReport r x.1 ++ contentReports cfg (r.see cfg (contentSeen x)) rest

/-- Did `poll` announce the content of a peer for validation? -/
def announcement : Option QState → List Id
  | some (.validating peer) => [peer]
  | _ => []

/-- The peers whose content `poll` announced for validation, in order. -/
def announced (hist : List (CEvent × Option QState)) : List Id :=
  hist.flatMap (fun x => announcement x.2)

/-- Where the content `v` comes from, in the events `es`: a validation task ended and either the
node itself had a value for the key, or the validator accepted `v.content`, and those bytes were
reported by `v.sender`: directly, or over the stream it offered. -/
def Provenance (es : List CEvent) (v : Validated) : Prop :=
  ∃ before n fetch stored valid after,
    es = before ++ CEvent.taskEnds n fetch stored valid :: after ∧
    ((CEvent.success v.sender (.content v.content) ∈ before ∧ v.wasUtp = false ∧ stored = none ∧
        valid v.content = true) ∨
     ((∃ cid, CEvent.success v.sender (.connectionId cid) ∈ before) ∧ fetch = .data v.content ∧
        v.wasUtp = true ∧ stored = none ∧ valid v.content = true) ∨
     ((∃ b, CEvent.success v.sender (.content b) ∈ before) ∧ v.wasUtp = false ∧
        stored = some v.content) ∨
     ((∃ cid b, CEvent.success v.sender (.connectionId cid) ∈ before ∧ fetch = .data b) ∧
        v.wasUtp = true ∧ stored = some v.content))

end Verif.Props
