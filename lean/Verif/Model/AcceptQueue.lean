/-! # Accept queue (crates/portalnet/src/accept_queue.rs)

The queue remembers the content keys whose transfer has been accepted. `delay_map::HashMapDelay` is
not in /repo: it is a list with at most one entry per key, each entry with the instant at which it
expires. Time is in milliseconds. `K` are content keys, `P` are peers (ENRs). -/

namespace Verif.AQ

/-- `OFFER_QUEUE_TIMEOUT` (accept_queue.rs:8). -/
def timeout : Nat := 120000

/-- `SeenPeers` (accept_queue.rs:11-16) with its key and the expiry kept by the delay map. -/
structure Entry (K P : Type) where
  key : K
  origin : P
  fallback : List P
  expiry : Nat
deriving DecidableEq, Repr

variable {K P : Type} [DecidableEq K] [DecidableEq P]

/-- Poll of the expired entries (accept_queue.rs:58). `poll_expired` is a stream: one poll yields, and
so removes, one expired entry if there is any. Which one is up to the delay map; `pick` chooses. -/
def expireOne (now pick : Nat) (q : List (Entry K P)) : List (Entry K P) :=
  let expired := q.filter (fun e => decide (e.expiry ≤ now))
  match expired[pick % expired.length]? with
  | none => q
  | some e => q.filter (fun e' => decide (e'.key ≠ e.key))

/-- `HashMapDelay::get`-like lookup used by `remove` (accept_queue.rs:59,92). -/
def lookup (q : List (Entry K P)) (k : K) : Option (Entry K P) :=
  q.find? (fun e => decide (e.key = k))

/-- `AcceptQueue::remove_key` (accept_queue.rs:84-86). -/
def removeKey (q : List (Entry K P)) (k : K) : List (Entry K P) :=
  q.filter (fun e => decide (e.key ≠ k))

/-- `AcceptQueue::add_key_to_queue` (accept_queue.rs:56-81). Inserting gives the entry a new expiry. -/
def addKey (q : List (Entry K P)) (now pick : Nat) (k : K) (p : P) : List (Entry K P) × Bool :=
  let q := expireOne now pick q
  match lookup q k with
  | some e =>
    let fallback := if e.origin = p ∨ p ∈ e.fallback then e.fallback else e.fallback ++ [p]
    (⟨k, e.origin, fallback, now + timeout⟩ :: removeKey q k, false)
  | none => (⟨k, p, [], now + timeout⟩ :: q, true)

/-- `AcceptQueue::process_failed_key` (accept_queue.rs:91-106). Shuffling and taking the first element
is a choice of one element, made by `pick`. -/
def processFailed (q : List (Entry K P)) (k : K) (pick : Nat) : List (Entry K P) × Option P :=
  match lookup q k with
  | some e => (removeKey q k, e.fallback[pick % e.fallback.length]?)
  | none => (q, none)

/-- The calls made on the queue. -/
inductive Op (K P : Type) where
  | add (now pick : Nat) (k : K) (p : P)
  | remove (k : K)
  | failed (k : K) (pick : Nat)
deriving DecidableEq, Repr

/-- What a caller sees of one call. -/
inductive Event (K P : Type) where
  | offered (now : Nat) (k : K) (p : P) (accepted : Bool)
  | done (k : K)
  | failed (k : K) (used : Option P)
deriving DecidableEq, Repr

/-- One call (accept_queue.rs:56-106). -/
def step (q : List (Entry K P)) : Op K P → List (Entry K P) × Event K P
  | .add now pick k p => let r := addKey q now pick k p; (r.1, .offered now k p r.2)
  | .remove k => (removeKey q k, .done k)
  | .failed k pick => let r := processFailed q k pick; (r.1, .failed k r.2)

/-- A sequence of calls, with what the callers saw. -/
def run (q : List (Entry K P)) : List (Op K P) → List (Entry K P) × List (Event K P)
  | [] => (q, [])
  | o :: os =>
    let r := step q o
    let rest := run r.1 os
    (rest.1, r.2 :: rest.2)

end Verif.AQ
