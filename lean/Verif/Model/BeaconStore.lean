import Verif.Model.Bytes

/-! # The beacon store

`crates/subnetworks/beacon/src/storage.rs` with the statements of `crates/storage/src/sql.rs`.

The light client types enter through their codecs (`Codec`). A table is a list of rows. Integers bound
to a statement are signed 64-bit: binding a `u64` of 2^63 or more is an error (rusqlite). The
addition `start_period + count` wraps around (release build; a debug build aborts). Left out: the
metrics, the directory size read after a write (an error there is reported although the content was
stored), the chain head updates (`Model/ChainHead.lean`), errors when reading from the database. -/

namespace Verif.BeaconStore

/-- `BeaconContentKey`. -/
inductive Key where
  | bootstrap (root : Bytes)
  | updates (start count : UInt64)
  | finality (slot : UInt64)
  | optimistic (slot : UInt64)
  | summaries (epoch : UInt64)
deriving DecidableEq, Repr

/-- The codecs of the values. `decBoot` gives the slot and the root of the header
(storage.rs:398-464); `electraSlot` is the finalized slot of an update of the last fork, `none` for
updates of older forks (storage.rs:84-89); `decSum` says whether historical summaries decode. -/
structure Codec (U F O : Type) where
  decBoot : Bytes → Option (UInt64 × Bytes)
  decUpdate : Bytes → Option U
  encUpdate : U → Bytes
  decUpdates : Bytes → Option (List U)
  encUpdates : List U → Bytes
  decFin : Bytes → Option F
  encFin : F → Bytes
  electraSlot : F → Option UInt64
  decOpt : Bytes → Option O
  encOpt : O → Bytes
  sigSlot : O → UInt64
  decSum : Bytes → Bool

/-- A row of `lc_bootstrap` (sql.rs:5-10). -/
structure BootRow where
  root : Bytes
  value : Bytes
  slot : Nat
deriving DecidableEq, Repr

/-- The tables (sql.rs:5-66; `historical_summaries` has at most one row) and the cache
(storage.rs:43-46). -/
structure State (F O : Type) where
  boots : List BootRow
  updates : List (Nat × Bytes)
  summaries : Option (Nat × Bytes)
  fin : Option F
  opt : Option O
deriving DecidableEq, Repr

inductive Err where
  | database
  | invalidData
deriving DecidableEq, Repr

variable {U F O : Type}

/-- The empty database, just opened. -/
def init : State F O := ⟨[], [], none, none, none⟩

/-- A `u64` bound to a statement. -/
def sqlInt (n : Nat) : Option Nat := if n < 2 ^ 63 then some n else none

/-- `start_period..(start_period + count)` (storage.rs:136-137, 221-222, 476). -/
def periods (start count : UInt64) : List Nat :=
  List.range' start.toNat ((start + count).toNat - start.toNat)

/-- `LC_UPDATE_LOOKUP_QUERY` (sql.rs:53). -/
def lookupUpdate (st : State F O) (p : Nat) : Except Err (Option Bytes) :=
  match sqlInt p with
  | none => .error .database
  | some p => .ok ((st.updates.find? fun r => decide (r.1 = p)).map (·.2))

/-- The loop of `get` for updates (storage.rs:139-159). `none`: a period is missing. -/
def collectUpdates (c : Codec U F O) (st : State F O) : List U → List Nat →
    Except Err (Option (List U))
  | acc, [] => .ok (some acc)
  | acc, p :: ps =>
    match lookupUpdate st p with
    | .error e => .error e
    | .ok none => .ok none
    | .ok (some v) =>
      match c.decUpdate v with
      | none => .error .database
      | some u => collectUpdates c st (acc ++ [u]) ps

/-- `get_finality_update` (storage.rs:77-97). -/
def getFinality (c : Codec U F O) (st : State F O) (slot : UInt64) : Option F :=
  match st.fin with
  | none => none
  | some f =>
    match c.electraSlot f with
    | none => none
    | some s => if slot ≤ s then some f else none

/-- `get_optimistic_update` (storage.rs:63-74). -/
def getOptimistic (c : Codec U F O) (st : State F O) (slot : UInt64) : Option O :=
  match st.opt with
  | none => none
  | some o => if slot ≤ c.sigSlot o then some o else none

/-- `HISTORICAL_SUMMARIES_LOOKUP_QUERY` (sql.rs:74-75, storage.rs:704-717). -/
def lookupSummaries (st : State F O) (epoch : UInt64) : Except Err (Option Bytes) :=
  match sqlInt epoch.toNat with
  | none => .error .database
  | some e =>
    match st.summaries with
    | none => .ok none
    | some r => .ok (if e ≤ r.1 then some r.2 else none)

/-- `LC_BOOTSTRAP_LOOKUP_QUERY` (sql.rs:22-23). -/
def lookupBoot (st : State F O) (root : Bytes) : Option Bytes :=
  (st.boots.find? fun r => decide (r.root = root)).map (·.value)

/-- `BeaconStorage::get` (storage.rs:125-187). -/
def get (c : Codec U F O) (st : State F O) : Key → Except Err (Option Bytes)
  | .bootstrap root => .ok (lookupBoot st root)
  | .updates start count =>
    match collectUpdates c st [] (periods start count) with
    | .error e => .error e
    | .ok none => .ok none
    | .ok (some us) => if us.length ≤ 128 then .ok (some (c.encUpdates us)) else .error .database
  | .finality slot => .ok ((getFinality c st slot).map c.encFin)
  | .optimistic slot => .ok ((getOptimistic c st slot).map c.encOpt)
  | .summaries epoch => lookupSummaries st epoch

/-- `ShouldWeStoreContent`, the variants used here. -/
inductive Should where
  | store
  | alreadyStored
deriving DecidableEq, Repr

/-- The loop over the periods (storage.rs:224-237). -/
def anyStored (st : State F O) : List Nat → Except Err Should
  | [] => .ok .store
  | p :: ps =>
    match lookupUpdate st p with
    | .error e => .error e
    | .ok (some _) => .ok .alreadyStored
    | .ok none => anyStored st ps

/-- `BeaconStorage::should_we_store` (storage.rs:199-274). -/
def shouldWeStore (c : Codec U F O) (st : State F O) : Key → Except Err Should
  | .bootstrap root => .ok (if (lookupBoot st root).isSome then .alreadyStored else .store)
  | .updates start count => anyStored st (periods start count)
  | .finality slot => .ok (if (getFinality c st slot).isSome then .alreadyStored else .store)
  | .optimistic slot =>
    .ok (match getOptimistic c st slot with
      | some o => if slot ≤ c.sigSlot o then .alreadyStored else .store
      | none => .store)
  | .summaries epoch =>
    match lookupSummaries st epoch with
    | .error e => .error e
    | .ok r => .ok (if r.isSome then .alreadyStored else .store)

/-- `INSERT_BOOTSTRAP_QUERY` (sql.rs:15-17): an existing row stays. -/
def insertBoot (st : State F O) (r : BootRow) : State F O :=
  if st.boots.any (fun x => decide (x.root = r.root)) then st
  else { st with boots := st.boots ++ [r] }

/-- `INSERT_LC_UPDATE_QUERY` (sql.rs:49-51): an existing row stays. -/
def insertUpdate (st : State F O) (p : Nat) (v : Bytes) : State F O :=
  if st.updates.any (fun x => decide (x.1 = p)) then st
  else { st with updates := st.updates ++ [(p, v)] }

/-- `db_insert_lc_update` (storage.rs:358-369), `ok` says whether the database accepts the write. -/
def writeUpdate (st : State F O) (p : Nat) (v : Bytes) (ok : Bool) : State F O :=
  match sqlInt p with
  | none => st
  | some p => if ok then insertUpdate st p v else st

/-- The loop of `store` for updates (storage.rs:486-492): a failing write is only logged. `w i` says
whether the database accepts the `i`-th write. -/
def insertUpdates (c : Codec U F O) (w : Nat → Bool) : Nat → State F O → List (Nat × U) → State F O
  | _, st, [] => st
  | i, st, (p, u) :: rest =>
    insertUpdates c w (i + 1) (writeUpdate st p (c.encUpdate u) (w i)) rest

/-- `BeaconStorage::store`, `put` (storage.rs:189-196, 389-547): the new state and whether it
succeeded. -/
def put (c : Codec U F O) (st : State F O) (key : Key) (value : Bytes) (w : Nat → Bool) :
    State F O × Except Err Unit :=
  match key with
  | .bootstrap _ =>
    match c.decBoot value with
    | none => (st, .error .invalidData)
    | some (slot, root) =>
      match sqlInt slot.toNat with
      | none => (st, .error .database)
      | some slot => if w 0 then (insertBoot st ⟨root, value, slot⟩, .ok ()) else (st, .error .database)
  | .updates start count =>
    match c.decUpdates value with
    | none => (st, .error .invalidData)
    | some us => (insertUpdates c w 0 st ((periods start count).zip us), .ok ())
  | .finality _ =>
    match c.decFin value with
    | none => (st, .error .invalidData)
    | some f => ({ st with fin := some f }, .ok ())
  | .optimistic _ =>
    match c.decOpt value with
    | none => (st, .error .invalidData)
    | some o => ({ st with opt := some o }, .ok ())
  | .summaries epoch =>
    if c.decSum value then
      match sqlInt epoch.toNat with
      | none => (st, .error .database)
      | some e => if w 0 then ({ st with summaries := some (e, value) }, .ok ())
        else (st, .error .database)
    else (st, .error .invalidData)

/-- `prune_old_bootstrap_data` (storage.rs:725-744), `LC_BOOTSTRAP_PRUNE_QUERY` (sql.rs:31), with the
threshold computed from the clock. -/
def prune (st : State F O) (threshold : Nat) : State F O :=
  { st with boots := st.boots.filter fun r => !decide (r.slot < threshold) }

/-- `BeaconStorage::new` on an existing database (storage.rs:284-328): the cache is empty; `none` when
the stored summaries do not decode. -/
def reopen (c : Codec U F O) (st : State F O) : Option (State F O) :=
  match st.summaries with
  | none => some { st with fin := none, opt := none }
  | some r => if c.decSum r.2 then some { st with fin := none, opt := none } else none

/-- What happens to a store. -/
inductive Op where
  | put (key : Key) (value : Bytes) (w : Nat → Bool)
  | prune (threshold : Nat)
  | restart

/-- One step; `none`: the store cannot be opened. -/
def step (c : Codec U F O) (st : State F O) : Op → Option (State F O)
  | .put k v w => some (put c st k v w).1
  | .prune t => some (prune st t)
  | .restart => reopen c st

/-- A history. -/
def run (c : Codec U F O) : State F O → List Op → Option (State F O)
  | st, [] => some st
  | st, op :: ops =>
    match step c st op with
    | none => none
    | some st' => run c st' ops

end Verif.BeaconStore
