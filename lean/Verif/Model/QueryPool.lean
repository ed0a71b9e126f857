import Verif.Model.Query
import Verif.Model.Sort

/-!
The pool of running lookups.  Source: `crates/portalnet/src/find/query_pool.rs`.

The pool is generic over the kind of lookup, as in the code (`TQuery: Query<TNodeId>`).
-/

namespace Verif.QueryPool
open Verif.Query

/-- The methods of the `Query` trait (query.rs 78-130) the pool uses.  `poll` is `none` if it
aborts. -/
structure Ops (Q : Type) where
  poll : Q → Nat → Option (Q × QState)
  started : Q → Option Nat
  start : Q → Nat → Q
  overallTimeout : Q → Nat

/-- `Query for FindNodeQuery`, findnodes.rs 58-280. -/
def nodeOps : Ops Query :=
  { poll := Query.poll
    started := fun q => q.started
    start := fun q now => { q with started := some now }
    overallTimeout := fun q => q.cfg.overallTimeout }

/-- `Query for FindContentQuery`, findcontent.rs 134-392. -/
def contentOps : Ops CQuery :=
  { poll := Query.cPoll
    started := fun q => q.base.started
    start := fun q now => { q with base := { q.base with started := some now } }
    overallTimeout := fun q => q.base.cfg.overallTimeout }

/-- An entry of the map: id, `QueryInfo`, query. -/
structure Entry (I Q : Type) where
  id : Nat
  info : I
  query : Q
  deriving DecidableEq, Repr

/-- `QueryPool`, query_pool.rs 41-45. -/
structure Pool (I Q : Type) where
  nextId : Nat
  queries : List (Entry I Q)
  deriving DecidableEq, Repr

/-- `QueryPool::new`, query_pool.rs 93-99. -/
def new (I Q : Type) : Pool I Q := ⟨0, []⟩

/-- `add_query`, query_pool.rs 107-112.  The id is a `usize`, taken as 64 bits wide. -/
def addQuery (p : Pool I Q) (info : I) (q : Q) : Pool I Q × Nat :=
  (⟨(p.nextId + 1) % 2 ^ 64,
    p.queries.filter (fun e => decide (e.id ≠ p.nextId)) ++ [⟨p.nextId, info, q⟩]⟩, p.nextId)

/-- `get_mut` followed by a change of the query, query_pool.rs 115-117; `f` is `none` if the change
aborts. -/
def modify (p : Pool I Q) (id : Nat) (f : Q → Option Q) : Option (Pool I Q) :=
  match p.queries.find? (fun e => decide (e.id = id)) with
  | none => some p
  | some e =>
    match f e.query with
    | none => none
    | some q' => some { p with
        queries := p.queries.map (fun x => if x.id = id then { x with query := q' } else x) }

/-- The variables the loop of `poll` sets, query_pool.rs 122-125 (at most one of them is set). -/
inductive Found where
  | nothing
  | finished (id : Nat)
  | validating (id : Nat) (peer : Id)
  | waiting (id : Nat) (peer : Id)
  | timeout (id : Nat)
  deriving DecidableEq, Repr

/-- `if query.started().is_none() { query.start(now) }`, query_pool.rs 128-130. -/
def ensureStarted (ops : Ops Q) (q : Q) (now : Nat) : Q :=
  match ops.started q with
  | none => ops.start q now
  | some _ => q

/-- The loop of `poll`, query_pool.rs 127-152, over the entries in iteration order. -/
def pollLoop (ops : Ops Q) (now : Nat) :
    List (Entry I Q) → Option (List (Entry I Q) × Found)
  | [] => some ([], .nothing)
  | e :: es =>
    match ops.poll (ensureStarted ops e.query now) now with
    | none => none
    | some (q', .finished) => some ({ e with query := q' } :: es, .finished e.id)
    | some (q', .validating peer) => some ({ e with query := q' } :: es, .validating e.id peer)
    | some (q', .waiting (some peer)) => some ({ e with query := q' } :: es, .waiting e.id peer)
    | some (q', _) =>
      if ops.overallTimeout q' ≤ now - (ops.started q').getD now then
        some ({ e with query := q' } :: es, .timeout e.id)
      else (pollLoop ops now es).map (fun r => ({ e with query := q' } :: r.1, r.2))

/-- `QueryPoolState`, query_pool.rs 60-84.  For the variants that borrow the query only its id is
kept: the caller reaches it through `modify`. -/
inductive PoolState (I Q : Type) where
  | idle
  | waiting (r : Option (Nat × Id))
  | validating (id : Nat) (peer : Id)
  | finished (e : Entry I Q)
  | timeout (e : Entry I Q)
  deriving DecidableEq, Repr

/-- `self.queries.remove(&query_id)`: the entry and the rest; the `expect` of query_pool.rs 165 and
170 aborts (`none`) if there is no such entry. -/
def remove (qs : List (Entry I Q)) (id : Nat) : Option (Entry I Q × List (Entry I Q)) :=
  (qs.find? (fun e => decide (e.id = id))).map
    (fun e => (e, qs.filter (fun x => decide (x.id ≠ id))))

/-- `poll`, query_pool.rs 120-179.  The iteration order of the hash map is arbitrary: entries are
visited by increasing `prio`, which the environment chooses anew for every poll. -/
def poll (ops : Ops Q) (p : Pool I Q) (now : Nat) (prio : Nat → Nat) :
    Option (Pool I Q × PoolState I Q) :=
  match pollLoop ops now (sortBy (fun a b => decide (prio a.id ≤ prio b.id)) p.queries) with
  | none => none
  | some (qs, .waiting id peer) => some ({ p with queries := qs }, .waiting (some (id, peer)))
  | some (qs, .validating id peer) => some ({ p with queries := qs }, .validating id peer)
  | some (qs, .finished id) =>
    (remove qs id).map (fun r => ({ p with queries := r.2 }, .finished r.1))
  | some (qs, .timeout id) =>
    (remove qs id).map (fun r => ({ p with queries := r.2 }, .timeout r.1))
  | some (qs, .nothing) =>
    match qs with
    | [] => some ({ p with queries := [] }, .idle)
    | e :: es => some ({ p with queries := e :: es }, .waiting none)

/-- A call on the pool. -/
inductive Event (I Q : Type) where
  | add (info : I) (q : Q)
  | modify (id : Nat) (f : Q → Option Q)
  | poll (now : Nat) (prio : Nat → Nat)

/-- What a call returned. -/
inductive Output (I Q : Type) where
  | added (id : Nat) (info : I)
  | none
  | polled (st : PoolState I Q)

/-- One call. -/
def step (ops : Ops Q) (p : Pool I Q) : Event I Q → Option (Pool I Q × Output I Q)
  | .add info q => some ((addQuery p info q).1, .added (addQuery p info q).2 info)
  | .modify id f => (QueryPool.modify p id f).map (fun p' => (p', .none))
  | .poll now prio => (QueryPool.poll ops p now prio).map (fun r => (r.1, .polled r.2))

/-- A sequence of calls with everything they returned. -/
def run (ops : Ops Q) (p : Pool I Q) : List (Event I Q) → Option (Pool I Q × List (Output I Q))
  | [] => some (p, [])
  | e :: es =>
    match step ops p e with
    | .none => .none
    | some (p', o) => (run ops p' es).map (fun r => (r.1, o :: r.2))

end Verif.QueryPool
