import Verif.Model.Distance
import Verif.Model.Sort

/-! # The content stores (crates/storage/src/versioned/{id_indexed_v1,ephemeral_v1}, usage_stats.rs)

The SQL table is a list of rows whose order has no meaning; a statement is atomic. Where SQLite may choose
(the order of rows with equal `distance_short`) an arbitrary function `order` chooses. The floating point
computations of the pruning strategy are arbitrary functions (`Arith`); `Arith.exact` is their value in exact
arithmetic. Metrics and logging are left out; `u64` sums do not overflow, subtractions are checked. -/

namespace Verif.Store

/-- A row (id_indexed_v1/sql.rs:8-23). -/
structure Row where
  id : Id
  key : Bytes
  value : Bytes
  dist : Nat
  size : Nat
deriving DecidableEq, Repr

/-- How long a pruning statement took, compared with the optimal range (pruning_strategy.rs:146-161). -/
inductive Speed where
  | fast | optimal | slow
deriving DecidableEq, Repr

structure Arith where
  /-- `target_capacity_bytes` (pruning_strategy.rs:104-108) of a capacity -/
  target : Nat → Nat
  /-- the number of entries that fit in the target (pruning_strategy.rs:169-178): target, entry count, total
  size, extra size per entry -/
  fit : Nat → Nat → Nat → Nat → Nat
  /-- the scaled `max_pruning_count` (pruning_strategy.rs:163) -/
  scale : Speed → Nat → Nat

/-- The values in exact arithmetic, with the default fractions 0.95 and 0.2. -/
def Arith.exact : Arith where
  target c := (c * 95 + 50) / 100
  fit t n total extra := t * n / (total + n * extra)
  scale sp m := match sp with
    | .fast => (m * 12 + 5) / 10
    | .optimal => m
    | .slow => (m * 8 + 5) / 10

/-- What the store computes with but does not define. -/
structure Env where
  /-- `OverlayContentKey::content_id` of an encoded key -/
  idOf : Bytes → Id
  /-- the rows in the order of `ORDER BY distance_short DESC` -/
  order : List Row → List Row
  arith : Arith

/-- `IdIndexedV1StoreConfig` (config.rs:13-22); `extra` is `extra_disk_usage_per_content_bytes`. -/
structure Config where
  node : Id
  capacity : Nat
  maxRadius : Nat
  extra : Nat
deriving DecidableEq, Repr

/-- `extra_disk_usage_per_content_bytes` (id_indexed_v1/store.rs:562-568): legacy history and state; `none` is
the panic for the ephemeral table. -/
inductive ContentType where
  | state | legacyHistoryEternal | legacyHistoryEphemeral
deriving DecidableEq, Repr
def extraOf : ContentType → Option Nat
  | .legacyHistoryEternal => some 750
  | .state => some 500
  | .legacyHistoryEphemeral => none

/-- `IdIndexedV1Store` (id_indexed_v1/store.rs:45-61) with its table; `count` and `total` are the usage
statistics (usage_stats.rs:5-13). -/
structure Store where
  rows : List Row
  radius : Nat
  maxPrune : Nat
  count : Nat
  total : Nat
deriving DecidableEq, Repr

/-- `panic` is a `u64` subtraction below zero; `endless` a pruning loop that does not end. -/
inductive Err where
  | insufficientRadius | wrongNode | panic | endless
deriving DecidableEq, Repr

variable (env : Env) (cfg : Config)

/-- `distance_to_content_id` (store.rs:178-180). -/
def distance (id : Id) : Nat := xorDistance cfg.node id

/-- `calculate_content_size` (store.rs:551-557). -/
def contentSize (key value : Bytes) : Nat := 32 + key.length + value.length

/-- The sum of the size column (sql.rs:102-107). -/
def sizes (rows : List Row) : Nat := (rows.map Row.size).sum

/-- `estimated_disk_usage_bytes` (usage_stats.rs:40-42). -/
def Store.usage (s : Store) : Nat := s.total + s.count * cfg.extra

/-- `should_prune` (pruning_strategy.rs:116-118), `is_estimated_disk_usage_above` (usage_stats.rs:55-57). -/
def Store.shouldPrune (s : Store) : Bool := decide (s.usage cfg > cfg.capacity)

/-- `is_usage_above_target_capacity` (pruning_strategy.rs:111-113). -/
def Store.aboveTarget (s : Store) : Bool := decide (s.usage cfg > env.arith.target cfg.capacity)

/-- `estimate_to_delete_until_target` (pruning_strategy.rs:169-184). -/
def estimate (s : Store) : Nat :=
  if s.count = 0 then 0
  else
    let fit := env.arith.fit (env.arith.target cfg.capacity) s.count s.total cfg.extra
    if s.count > fit then s.count - fit else 0

/-- `get_pruning_count` (pruning_strategy.rs:121-138). -/
def pruningCount (s : Store) : Nat :=
  if s.shouldPrune cfg = false then 0
  else if cfg.capacity = 0 then s.count
  else min (estimate env cfg s) s.maxPrune

/-- `observe_pruning_duration` (pruning_strategy.rs:142-165). -/
def observe (sp : Speed) (m : Nat) : Nat :=
  match sp with
  | .optimal => m
  | _ => max (env.arith.scale sp m) 1

/-- `init_usage_stats` (store.rs:386-406). -/
def Store.initUsage (s : Store) : Store := { s with count := s.rows.length, total := sizes s.rows }

/-- One turn of the pruning loop (store.rs:480-529). `stop` leaves the loop (line 480 or 514), `early`
returns from `prune` (488). -/
inductive Turn where
  | stop (s : Store) | early (s : Store) | fail | next (s : Store) (deleted : List Row)

def pruneTurn (sp : Speed) (s : Store) : Turn :=
  if s.shouldPrune cfg = false then .stop s
  else
    let n := pruningCount env cfg s
    if n = 0 then .early s
    else
      let deleted := (env.order s.rows).take n
      let s := { s with rows := (env.order s.rows).drop n, maxPrune := observe env sp s.maxPrune }
      if deleted.length ≠ n then .stop s.initUsage
      else if s.count < n ∨ s.total < sizes deleted then .fail
      else .next { s with count := s.count - n, total := s.total - sizes deleted } deleted

/-- The pruning loop (store.rs:480-529), at most `fuel` turns; the speed of the turns is given. The flag is
`false` after an early return. -/
def pruneLoop : Nat → List Speed → Store → List Row → Except Err (Store × List Row × Bool)
  | 0, _, _, _ => .error .endless
  | fuel + 1, sps, s, dropped =>
    match pruneTurn env cfg (sps.headD .optimal) s with
    | .stop s => .ok (s, dropped, true)
    | .early s => .ok (s, dropped, false)
    | .fail => .error .panic
    | .next s deleted => pruneLoop fuel sps.tail s (dropped ++ deleted)

/-- `set_radius_to_farthest` (store.rs:434-457). -/
def setRadius (s : Store) : Store :=
  match (env.order s.rows).head? with
  | none => { s with radius := if cfg.capacity = 0 then 0 else cfg.maxRadius }
  | some far => { s with radius := min (distance cfg far.id) cfg.maxRadius }

/-- `prune` (store.rs:461-545): each turn that goes on removes a row, so there are at most as many turns as
rows, and one to stop. -/
def prune (sps : List Speed) (s : Store) : Except Err (Store × List Row) :=
  if s.shouldPrune cfg = false then .ok (s, [])
  else
    match pruneLoop env cfg (s.rows.length + 1) sps s [] with
    | .error e => .error e
    | .ok (s, dropped, true) => .ok (setRadius env cfg s, dropped)
    | .ok (s, dropped, false) => .ok (s, dropped)

/-- `INSERT OR IGNORE` (sql.rs:25-44). -/
def insertRow (rows : List Row) (r : Row) : List Row :=
  if rows.any fun x => x.id == r.id then rows else rows ++ [r]

def newRow (key value : Bytes) : Row :=
  { id := env.idOf key, key, value, dist := distBigEndianU32 (distance cfg (env.idOf key)),
    size := contentSize key value }

/-- The store after the statement and the statistics update of `insert` (store.rs:266-284). -/
def inserted (s : Store) (key value : Bytes) : Store :=
  { s with
    rows := insertRow s.rows (newRow env cfg key value)
    count := s.count + 1
    total := s.total + contentSize key value }

/-- `insert` (store.rs:249-294); the result lists the dropped keys and values. -/
def insert (sps : List Speed) (s : Store) (key value : Bytes) : Except Err (Store × List (Bytes × Bytes)) :=
  if s.radius < distance cfg (env.idOf key) then .error .insufficientRadius
  else
    let s := inserted env cfg s key value
    if s.shouldPrune cfg then
      match prune env cfg sps s with
      | .error e => .error e
      | .ok (s, dropped) => .ok (s, dropped.map fun r => (r.key, r.value))
    else .ok (s, [])

/-- `delete` (store.rs:297-325). -/
def delete (s : Store) (id : Id) : Except Err Store :=
  match s.rows.find? fun r => r.id == id with
  | none => .ok s
  | some r =>
    if s.count < 1 ∨ s.total < r.size then .error .panic
    else .ok { s with rows := s.rows.filter (fun r => r.id != id), count := s.count - 1, total := s.total - r.size }

/-- `has_content`, `lookup_content_key`, `lookup_content_value` (store.rs:183-244). -/
def lookup (rows : List Row) (id : Id) : Option (Bytes × Bytes) :=
  (rows.find? fun r => r.id == id).map fun r => (r.key, r.value)
def hasContent (s : Store) (id : Id) : Bool := (lookup s.rows id).isSome
def lookupKey (s : Store) (id : Id) : Option Bytes := (lookup s.rows id).map Prod.fst
def lookupValue (s : Store) (id : Id) : Option Bytes := (lookup s.rows id).map Prod.snd

/-- SQLite's comparison of blobs. -/
def blobLe : Bytes → Bytes → Bool
  | [], _ => true
  | _ :: _, [] => false
  | a :: x, b :: y => if a < b then true else if b < a then false else blobLe x y

/-- `paginate` (store.rs:329-358, sql.rs:92-100), with the reported entry count. Offset and limit are below
2^63. -/
def paginate (s : Store) (offset limit : Nat) : List Bytes × Nat :=
  (((sortBy blobLe (s.rows.map Row.key)).drop offset).take limit, s.count)

/-- `init` (store.rs:110-154) over the rows found in the table, up to the check of the node id. -/
def openRows (sps : List Speed) (rows : List Row) : Except Err Store :=
  let s : Store := Store.initUsage ⟨rows, cfg.maxRadius, 100, 0, 0⟩
  if s.shouldPrune cfg then
    match prune env cfg sps s with
    | .error e => .error e
    | .ok (s, _) => .ok s
  else if s.aboveTarget env cfg then .ok (setRadius env cfg s)
  else if cfg.capacity = 0 then .ok { s with radius := 0 }
  else .ok { s with radius := cfg.maxRadius }

/-- `create` (store.rs:83-105) and `init` with its check of the node id (store.rs:110-168). -/
def create (sps : List Speed) (rows : List Row) : Except Err Store :=
  match openRows env cfg sps rows with
  | .error e => .error e
  | .ok s =>
    match (env.order s.rows).head? with
    | none => .ok s
    | some far =>
      if far.dist ≠ distBigEndianU32 (distance cfg far.id) then .error .wrongNode else .ok s

/-- The rows left by an attempt to open the store, also when the node id was refused. -/
def attemptRows (sps : List Speed) (rows : List Row) : List Row :=
  match openRows env cfg sps rows with
  | .error _ => rows
  | .ok s => s.rows

/-- The rows after the process was killed during `insert`, when `k` pruning statements had been executed
(`none`: before the insertion). -/
def killedTurns : Nat → List Speed → Store → List Row
  | 0, _, s => s.rows
  | k + 1, sps, s =>
    match pruneTurn env cfg (sps.headD .optimal) s with
    | .stop s' => s'.rows
    | .early s' => s'.rows
    | .fail => s.rows
    | .next s' _ => killedTurns k sps.tail s'

def killed (sps : List Speed) (s : Store) (key value : Bytes) : Option Nat → List Row
  | none => s.rows
  | some k =>
    if s.radius < distance cfg (env.idOf key) then s.rows
    else killedTurns env cfg k sps (inserted env cfg s key value)

/-- The rows after several attempts to open the store. -/
def attempts (env : Env) (tries : List (Config × List Speed)) (rows : List Row) : List Row :=
  tries.foldl (fun rows a => attemptRows env a.1 a.2 rows) rows

/-- What can happen to a store: an insertion, a deletion, a clean restart with another configuration, a kill
during an insertion followed by a restart. Before a restart succeeds, there may be attempts that do not. -/
inductive Op where
  | insert (sps : List Speed) (key value : Bytes)
  | delete (id : Id)
  | restart (tries : List (Config × List Speed)) (cfg : Config) (sps : List Speed)
  | kill (sps : List Speed) (key value : Bytes) (turns : Option Nat) (tries : List (Config × List Speed))
      (cfg : Config) (sps' : List Speed)

/-- One operation. A refused insertion leaves the store as it is. -/
def step (env : Env) (st : Config × Store) : Op → Except Err (Config × Store)
  | .insert sps key value =>
    match insert env st.1 sps st.2 key value with
    | .ok (s, _) => .ok (st.1, s)
    | .error .insufficientRadius => .ok st
    | .error e => .error e
  | .delete id =>
    match delete st.2 id with
    | .ok s => .ok (st.1, s)
    | .error e => .error e
  | .restart tries cfg sps =>
    match create env cfg sps (attempts env tries st.2.rows) with
    | .ok s => .ok (cfg, s)
    | .error e => .error e
  | .kill sps key value turns tries cfg sps' =>
    match create env cfg sps' (attempts env tries (killed env st.1 sps st.2 key value turns)) with
    | .ok s => .ok (cfg, s)
    | .error e => .error e

def run (env : Env) : Config × Store → List Op → Except Err (Config × Store)
  | st, [] => .ok st
  | st, op :: ops =>
    match step env st op with
    | .ok st => run env st ops
    | .error e => .error e

/-! ## The ephemeral store (ephemeral_v1/store.rs) -/

/-- `insert` (ephemeral_v1/store.rs:146-175): no radius and no pruning. The type and slot columns are not
read anywhere and are left out. -/
def ephInsert (idOf : Bytes → Id) (s : Store) (key value : Bytes) : Store :=
  { s with
    rows := insertRow s.rows { id := idOf key, key, value, dist := 0, size := contentSize key value }
    count := s.count + 1
    total := s.total + contentSize key value }

/-- `create` (ephemeral_v1/store.rs:50-77). -/
def ephCreate (rows : List Row) : Store := Store.initUsage ⟨rows, 0, 0, 0, 0⟩

/-- What can happen to an ephemeral store: `insert` (146-175), `delete` (178-204, the same as `delete` above),
a restart. The lookups (82-143) are those above. -/
inductive EphOp where
  | insert (key value : Bytes)
  | delete (id : Id)
  | restart

def ephStep (idOf : Bytes → Id) (s : Store) : EphOp → Except Err Store
  | .insert key value => .ok (ephInsert idOf s key value)
  | .delete id => delete s id
  | .restart => .ok (ephCreate s.rows)

def ephRun (idOf : Bytes → Id) : Store → List EphOp → Except Err Store
  | s, [] => .ok s
  | s, op :: ops =>
    match ephStep idOf s op with
    | .ok s => ephRun idOf s ops
    | .error e => .error e

end Verif.Store
