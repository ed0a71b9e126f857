/-!
# The execution driver (`bin/trin-execution/src/execution.rs`, `e2hs/manager.rs`, `evm/block_executor.rs`)

Blocks are fetched from e2hs files, executed in memory, and committed together with the position to continue from.

What is not modelled here: the EVM itself (`Machine.exec` is any function of the state and the block hashes that are
read), the trie (`Machine.root` is any function of the state; C65 relates the flat database and the trie), metrics,
tracing. Timing (`should_commit` uses a clock), the stop signal and the network are inputs (`Tick`).
-/

namespace Verif.Execution

/-- What of a block the driver looks at (`ProcessedBlock`, e2hs/types.rs:32-38). `body` stands for transactions,
uncles and withdrawals. -/
structure Block where
  number : Nat
  hash : Nat
  stateRoot : Nat
  gasUsed : Nat
  body : Nat
deriving DecidableEq, Repr

/-- A write to the database: `none` deletes. -/
abbrev Write (Key Val : Type) := Key × Option Val

/-- The state: accounts, storage and code. -/
abbrev World (Key Val : Type) := Key → Option Val

/-- What the driver relies on. `exec` gives the changes of a block and the gas used, or nothing if a transaction could
not be executed; it sees the state and the block hashes in the database (`evm.replay()`, block_executor.rs:185-234).
`root` is the state root. `alloc` is the genesis allocation (block_executor.rs:126-150). -/
structure Machine (Key Val : Type) where
  exec : World Key Val → (Nat → Option Nat) → Block → Option (List (Write Key Val) × Nat)
  root : World Key Val → Nat
  alloc : List (Write Key Val)

section
variable {Key Val : Type} [DecidableEq Key]

/-- One `put` or `delete`. -/
def World.write (w : World Key Val) (x : Write Key Val) : World Key Val := fun k => if k = x.1 then x.2 else w k

/-- Several of them. -/
def World.writes (w : World Key Val) (xs : List (Write Key Val)) : World Key Val := xs.foldl World.write w

/-- What survives a crash: the flat database with the block hashes and the execution position
(`EXECUTION_POSITION_DB_KEY`, execution_position.rs:12-57). The version of the position is left out. -/
structure Disk (Key Val : Type) where
  world : World Key Val
  hashes : Nat → Option Nat
  next : Nat
  root : Nat

/-- `E2HSManager` (e2hs/manager.rs:18-24). `handle` is the file that the background task fetches. -/
structure Manager where
  next : Nat
  current : Option (Nat × List Block)
  handle : Option Nat

/-- `BLOCKS_PER_E2HS` (crates/e2store/src/e2hs.rs:47). -/
def perFile : Nat := 8192

/-- `E2HSManager::new` (e2hs/manager.rs:27-56). Reading the list of files is left out: a file that is not listed is one
that cannot be fetched. -/
def Manager.new (next : Nat) : Manager := { next, current := none, handle := some (next / perFile) }

/-- `get_next_processed_e2hs` with `process_e2hs_file` (e2hs/manager.rs:104-129; e2hs/utils.rs:13-48). `fetch` is the
result of the download; an empty file panics in the task, which is an error here too. The handle is taken before the
download is awaited. -/
def Manager.nextFile (fetch : Nat → Option (List Block)) (m : Manager) : Option (Nat × List Block) × Manager :=
  match m.handle with
  | none => (none, m)
  | some i =>
    match fetch i with
    | none => (none, { m with handle := none })
    | some [] => (none, { m with handle := none })
    | some (b :: bs) => (some (b.number / perFile, b :: bs), { m with handle := some (b.number / perFile + 1) })

/-- The end of `get_next_block` and `ProcessedE2HS::get_block` (e2hs/manager.rs:89-101; e2hs/types.rs:45-53). -/
def Manager.take (m : Manager) (f : Nat × List Block) : Option Block × Manager :=
  if f.1 = m.next / perFile then
    match f.2[m.next - f.1 * perFile]? with
    | none => (none, m)
    | some b => (some b, { m with next := m.next + 1 })
  else (none, m)

/-- `get_next_block` when another file is needed (e2hs/manager.rs:83-87). -/
def Manager.refill (fetch : Nat → Option (List Block)) (m : Manager) : Option Block × Manager :=
  match m.nextFile fetch with
  | (none, m') => (none, m')
  | (some f, m') => Manager.take { m' with current := some f } f

/-- `get_next_block` (e2hs/manager.rs:78-102). -/
def Manager.getNext (fetch : Nat → Option (List Block)) (m : Manager) : Option Block × Manager :=
  match m.current with
  | none => m.refill fetch
  | some f => if f.1 = m.next / perFile then m.take f else m.refill fetch

/-- `BlockExecutor` (evm/block_executor.rs:54-63): the changes in memory. The counters of `should_commit` are part of
`Tick.limits`. -/
structure Executor (Key Val : Type) where
  pending : List (Write Key Val)

/-- `BLOCKHASH_SERVE_WINDOW` (evm/block_executor.rs:36). -/
def serveWindow : Nat := 256

/-- `manage_block_hash_serve_window` (evm/block_executor.rs:237-256): directly in the database. -/
def serveHash (hashes : Nat → Option Nat) (b : Block) : Nat → Option Nat := fun n =>
  if serveWindow ≤ b.number ∧ n = b.number - serveWindow then none else if n = b.number then some b.hash else hashes n

/-- `execute_block` (evm/block_executor.rs:152-213). Genesis is written directly into the database and has no effect
on the block hashes. -/
def executeBlock (m : Machine Key Val) (d : Disk Key Val) (e : Executor Key Val) (b : Block) :
    Option (Disk Key Val × Executor Key Val) :=
  if b.number = 0 then some ({ d with world := d.world.writes m.alloc }, e)
  else
    match m.exec (d.world.writes e.pending) d.hashes b with
    | none => none
    | some (changes, gas) =>
      if gas = b.gasUsed then
        some ({ d with hashes := serveHash d.hashes b }, { pending := e.pending ++ changes })
      else none

/-- `TrinExecution` (execution.rs:24-30). The position in memory is the one in the database. -/
structure Node (Key Val : Type) where
  disk : Disk Key Val
  manager : Manager

/-- `TrinExecution::new` (execution.rs:33-52), after a stop or a crash. -/
def restart (d : Disk Key Val) : Node Key Val := { disk := d, manager := Manager.new d.next }

/-- The database before the first start (execution_position.rs:59-67). -/
def Disk.fresh (emptyRoot : Nat) : Disk Key Val :=
  { world := fun _ => none, hashes := fun _ => none, next := 0, root := emptyRoot }

/-- `TrinExecution::commit` (execution.rs:130-152) with `update_position` (execution_position.rs:51-57). The first part
of the result says whether it succeeded; the changes are in the database in any case. -/
def commit (m : Machine Key Val) (d : Disk Key Val) (e : Executor Key Val) (b : Block) : Bool × Disk Key Val :=
  let d' := { d with world := d.world.writes e.pending }
  if m.root d'.world = b.stateRoot then (true, { d' with next := b.number + 1, root := b.stateRoot }) else (false, d')

/-- What one round of the loop meets: the result of downloads, whether the stop signal was received, whether
`should_commit` (evm/block_executor.rs:266-277) holds. -/
structure Tick where
  fetch : Nat → Option (List Block)
  stop : Bool
  limits : Bool

/-- How a call of `process_range_of_blocks` ends; `interrupted` is a crash in between two rounds. -/
inductive Outcome where
  | done
  | failed
  | interrupted
deriving DecidableEq, Repr

/-- Blocks after which there is no early commit (execution.rs:116). -/
def dosRange (n : Nat) : Bool := 2200000 ≤ n && n < 2700000

/-- The loop of `process_range_of_blocks` (execution.rs:79-122). -/
def processLoop (m : Machine Key Val) (last : Nat) : List Tick → Node Key Val → Executor Key Val → Outcome × Node Key Val
  | [], n, _ => (.interrupted, n)
  | t :: ts, n, e =>
    match n.manager.getNext t.fetch with
    | (none, manager) => (.failed, { n with manager })
    | (some b, manager) =>
      match executeBlock m n.disk e b with
      | none => (.failed, { n with manager })
      | some (d, e') =>
        if b.number = last ∨ t.stop = true then
          match commit m d e' b with
          | (true, d') => (.done, { disk := d', manager })
          | (false, d') => (.failed, { disk := d', manager })
        else if t.limits = true ∧ dosRange b.number = false then
          match commit m d e' b with
          | (true, d') => processLoop m last ts { disk := d', manager } { pending := [] }
          | (false, d') => (.failed, { disk := d', manager })
        else processLoop m last ts { disk := d, manager } e'

/-- `process_range_of_blocks` (execution.rs:65-123). -/
def processRange (m : Machine Key Val) (last : Nat) (ts : List Tick) (n : Node Key Val) : Outcome × Node Key Val :=
  if n.disk.next ≤ last then processLoop m last ts n { pending := [] } else (.failed, n)

/-- `process_next_block` (execution.rs:58-61). -/
def processNext (m : Machine Key Val) (ts : List Tick) (n : Node Key Val) : Outcome × Node Key Val :=
  processRange m n.disk.next ts n

/-- A process from its start to its end: it processes ranges one after the other until one fails or is interrupted
(main.rs:60-63; bin/portal-bridge/src/bridge/state.rs:119-152, `?` in both). -/
def session (m : Machine Key Val) : List (Nat × List Tick) → Node Key Val → Disk Key Val
  | [], n => n.disk
  | (last, ts) :: calls, n =>
    match processRange m last ts n with
    | (.done, n') => session m calls n'
    | (_, n') => n'.disk

/-- Processes one after the other on the same database. -/
def sessions (m : Machine Key Val) (d : Disk Key Val) (ss : List (List (Nat × List Tick))) : Disk Key Val :=
  ss.foldl (fun d calls => session m calls (restart d)) d

/-- A crash while the changes are written: the first of them are in the database (evm_db.rs `commit_bundle`: single
puts, no batch), the position is not. -/
def crashInCommit (d : Disk Key Val) (e : Executor Key Val) (written : Nat) : Disk Key Val :=
  { d with world := d.world.writes (e.pending.take written) }

end

end Verif.Execution
