import Verif.Model.Execution
import Verif.Model.DataDir
import Verif.Model.HeadGen

/-!
# The command `trin-execution` and the traces it writes (`bin/trin-execution/src/main.rs`, `cli.rs`, `types/block_to_trace.rs`)

The loop of `Verif.Execution` is taken over with the files that are made for traced transactions. The EVM and the tracer
are not modelled: what a tracer has written into a file in the end is an input (`Round.output`), as are errors of the file
system (`Round.fault`). That a traced transaction has the effects of one that is not traced is C68.
-/

namespace Verif.ExecTraces
open Verif.Execution
open Verif.DataDir (Path Fs mkdirs)

/-- `BlockToTrace` (block_to_trace.rs:10-16). -/
inductive ToTrace where
  | none
  | all
  | block (number : Nat)
deriving DecidableEq, Repr

/-- `should_trace` (block_to_trace.rs:19-25). -/
def ToTrace.should : ToTrace → Nat → Bool
  | .none, _ => false
  | .all, _ => true
  | .block b, number => b == number

/-- `str::split_once`. -/
def splitOnce (sep : Char) : List Char → Option (List Char × List Char)
  | [] => Option.none
  | c :: cs => if c = sep then some ([], cs) else (splitOnce sep cs).map fun p => (c :: p.1, p.2)

/-- `<BlockToTrace as FromStr>::from_str` (block_to_trace.rs:53-68). -/
def ToTrace.parse (s : List Char) : Option ToTrace :=
  if s = "none".toList then some .none
  else if s = "all".toList then some .all
  else
    match splitOnce ':' s with
    | some (kind, number) => if kind = "block".toList then (HeadGen.parseU64 number).map .block else Option.none
    | Option.none => Option.none

/-- The directory for a block (block_to_trace.rs:38-40). -/
def blockDir (root : Path) (number : Nat) : Path :=
  root ++ ["evm_traces".toList, "block_".toList ++ HeadGen.decimal number]

/-- The file of a transaction (block_to_trace.rs:42); a hash is shown as `0x` and 64 digits. -/
def txFile (root : Path) (number : Nat) (hash : Bytes) : Path :=
  blockDir root number ++ ["tx_".toList ++ (Hex.hexEncode hash ++ ".json".toList)]

/-- An error of the file system: none, when directories are made, or when the file is made. -/
inductive Fault where
  | none
  | directory
  | file
deriving DecidableEq, Repr

/-- What one round of the loop meets besides `Tick`: errors of the file system when the file of a transaction is made,
what its tracer writes, and how many transactions are begun in a block that cannot be executed. -/
structure Round where
  tick : Tick
  fault : Bytes → Fault
  output : Bytes → List Char
  begun : Nat

/-- `create_trace_writer` and `create_tracer` (block_to_trace.rs:30-48; execution.rs:153-162), with what the tracer
writes: `File::create` replaces a file that is there, and fails if there is a directory. Any error is ignored. -/
def traceTx (choice : ToTrace) (root : Path) (number : Nat) (r : Round) (fs : Fs) (hash : Bytes) : Fs :=
  if choice.should number then
    if r.fault hash = .directory then fs
    else
      match mkdirs fs (blockDir root number) with
      | Option.none => fs
      | some fs =>
        if r.fault hash = .file then fs
        else
          match fs (txFile root number hash) with
          | some .dir => fs
          | _ => fs.set (txFile root number hash) (.file (r.output hash))
  else fs

/-- The transactions that are begun in `execute_block_with_tracer` (block_executor.rs:156-213), one after the other; none in
the first block (block_executor.rs:165-168). -/
def traceBlock (choice : ToTrace) (root : Path) (number : Nat) (r : Round) (hashes : List Bytes) (fs : Fs) : Fs :=
  if number = 0 then fs else hashes.foldl (traceTx choice root number r) fs

section
variable {Key Val : Type} [DecidableEq Key]

/-- The loop of `process_range_of_blocks` (execution.rs:79-122) with the files that are made; `txs` are the hashes of the
transactions of a block. A crash comes between two rounds. -/
def processLoop (m : Machine Key Val) (txs : Block → List Bytes) (choice : ToTrace) (root : Path) (last : Nat) :
    List Round → Node Key Val → Executor Key Val → Fs → (Outcome × Node Key Val) × Fs
  | [], n, _, fs => ((.interrupted, n), fs)
  | r :: rs, n, e, fs =>
    match n.manager.getNext r.tick.fetch with
    | (Option.none, manager) => ((.failed, { n with manager }), fs)
    | (some b, manager) =>
      match executeBlock m n.disk e b with
      | Option.none => ((.failed, { n with manager }), traceBlock choice root b.number r ((txs b).take r.begun) fs)
      | some (d, e') =>
        let fs := traceBlock choice root b.number r (txs b) fs
        if b.number = last ∨ r.tick.stop = true then
          match commit m d e' b with
          | (true, d') => ((.done, { disk := d', manager }), fs)
          | (false, d') => ((.failed, { disk := d', manager }), fs)
        else if r.tick.limits = true ∧ dosRange b.number = false then
          match commit m d e' b with
          | (true, d') => processLoop m txs choice root last rs { disk := d', manager } { pending := [] } fs
          | (false, d') => ((.failed, { disk := d', manager }), fs)
        else processLoop m txs choice root last rs { disk := d, manager } e' fs

/-- `process_range_of_blocks` (execution.rs:65-123). -/
def processRange (m : Machine Key Val) (txs : Block → List Bytes) (choice : ToTrace) (root : Path) (last : Nat)
    (rs : List Round) (n : Node Key Val) (fs : Fs) : (Outcome × Node Key Val) × Fs :=
  if n.disk.next ≤ last then processLoop m txs choice root last rs n { pending := [] } fs else ((.failed, n), fs)

/-- `TrinExecutionSubCommands` (cli.rs:48-56) with the paths. -/
inductive Command where
  | importState (path : Path)
  | exportState (path : Path)

/-- `TrinExecutionConfig` (cli.rs:11-46) as texts: what clap hands to the parsers. `metrics` is an address. -/
structure Flags where
  dataDir : Option Path
  ephemeral : Bool
  lastBlock : Option (List Char)
  blockToTrace : Option (List Char)
  metrics : Option Nat
  command : Option Command

/-- What the program asks of others: whether the metrics can be served at an address, `setup_data_dir` (C79), importing
(the new database, or an error) and exporting (C81). -/
structure Env (Key Val : Type) where
  serves : Nat → Bool
  setup : Option Path → Bool → Option Path
  importState : Path → Disk Key Val → Bool × Disk Key Val
  exportState : Path → Disk Key Val → Bool

/-- How the command ends (main.rs:12-66): `usage`, arguments are refused by clap; `early`, with an error before a database is
opened; `ended`, with the database of a directory and the files, and whether it was a success; or by a crash. -/
inductive Exit (Key Val : Type) where
  | usage
  | early
  | ended (dir : Path) (ok : Bool) (disk : Disk Key Val) (fs : Fs)
  | crashed (dir : Path) (disk : Disk Key Val) (fs : Fs)

/-- `LATEST_BLOCK` (main.rs:10). -/
def latestBlock : Nat := 20868946

/-- The flags that have values (cli.rs:27-38): the parser of `u64`, and that of `BlockToTrace` with `none` for a flag that is
not given. -/
def parseFlags (f : Flags) : Option (Option Nat × ToTrace) :=
  match f.lastBlock, ToTrace.parse (f.blockToTrace.getD "none".toList) with
  | Option.none, some choice => some (Option.none, choice)
  | some t, some choice => (HeadGen.parseU64 t).map fun n => (some n, choice)
  | _, Option.none => Option.none

/-- `main` (main.rs:12-66). `disks` is the database in a directory, `fs` are the files when it is opened. A run without an answer to the last round is a crash.
Starting the database and the manager (`TrinExecution::new`) is taken to succeed. -/
def main (env : Env Key Val) (m : Machine Key Val) (txs : Block → List Bytes) (disks : Path → Disk Key Val)
    (rs : List Round) (f : Flags) (fs : Fs) : Exit Key Val :=
  match parseFlags f with
  | Option.none => .usage
  | some (last, choice) =>
    if f.metrics.any (fun a => !env.serves a) then .early
    else
      match env.setup f.dataDir f.ephemeral with
      | Option.none => .early
      | some dir =>
        match f.command with
        | some (.importState p) => let r := env.importState p (disks dir); .ended dir r.1 r.2 fs
        | some (.exportState p) => .ended dir (env.exportState p (disks dir)) (disks dir) fs
        | Option.none =>
          let r := processRange m txs choice dir (last.getD latestBlock) rs (restart (disks dir)) fs
          if r.1.1 = .interrupted then .crashed dir r.1.2.disk r.2 else .ended dir (r.1.1 = .done) r.1.2.disk r.2

end

end Verif.ExecTraces
