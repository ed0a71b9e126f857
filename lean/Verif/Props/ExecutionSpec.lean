import Verif.Model.Execution

/-!
# Specification of block execution

Independent of the driver: a chain of blocks, the states between them, and what can have happened to a database.
-/

namespace Verif.Execution

variable {Key Val : Type} [DecidableEq Key]

/-- The block hashes a block may see: all but that of genesis, which is never stored (see C65). -/
def known (chain : Nat → Block) (i : Nat) : Option Nat := if i = 0 then none else some (chain i).hash

/-- `world n` is the state before block `n`, when each block is executed on the state left by the one before. The blocks
are valid: each can be executed, uses the gas it says and leads to the state root it says. -/
structure ValidChain (m : Machine Key Val) (chain : Nat → Block) (world : Nat → World Key Val) : Prop where
  number : ∀ n, (chain n).number = n
  start : world 0 = fun _ => none
  genesis : world 1 = (world 0).writes m.alloc
  exec : ∀ n, 1 ≤ n → ∃ changes, m.exec (world n) (known chain) (chain n) = some (changes, (chain n).gasUsed) ∧
    world (n + 1) = (world n).writes changes
  root : ∀ n, m.root (world (n + 1)) = (chain n).stateRoot

/-- Blocks ask for the hashes of at most the `k` blocks before them (the EVM gives 256). -/
def LooksBack (m : Machine Key Val) (k : Nat) : Prop :=
  ∀ (w : World Key Val) (h h' : Nat → Option Nat) (b : Block),
    (∀ i, i < b.number → b.number ≤ i + k → h i = h' i) → m.exec w h b = m.exec w h' b

/-- The download of file `i` fails, or gives the blocks of the chain that belong there, possibly without the last ones. -/
def Honest (chain : Nat → Block) (fetch : Nat → Option (List Block)) : Prop :=
  ∀ i bs, fetch i = some bs → ∃ len, len ≤ perFile ∧ bs = (List.range len).map fun j => chain (i * perFile + j)

/-- The download of every file gives all its blocks. -/
def Available (chain : Nat → Block) (fetch : Nat → Option (List Block)) : Prop :=
  ∀ i, fetch i = some ((List.range perFile).map fun j => chain (i * perFile + j))

/-- All downloads of a process are honest. -/
def HonestCalls (chain : Nat → Block) (calls : List (Nat × List Tick)) : Prop :=
  ∀ c ∈ calls, ∀ t ∈ c.2, Honest chain t.fetch

/-- The database is at its position: it has the state before block `next`, and the state root of the block before.
Before the first block, any part of the genesis allocation may be there. -/
def AtPosition (m : Machine Key Val) (chain : Nat → Block) (world : Nat → World Key Val) (d : Disk Key Val) : Prop :=
  if d.next = 0 then ∃ ys : List (Write Key Val), (∀ y ∈ ys, y ∈ m.alloc) ∧ d.world = (world 0).writes ys
  else d.world = world d.next ∧ d.root = (chain (d.next - 1)).stateRoot

/-- What can have happened to a database: nothing, a crash while genesis was written, or a process that ended or crashed
in between two blocks, with at most `lag` blocks executed since the last commit. (Crashes during a commit are not
included.) -/
inductive History (m : Machine Key Val) (chain : Nat → Block) (lag : Nat) : Disk Key Val → Prop
  | fresh (emptyRoot : Nat) : History m chain lag (Disk.fresh emptyRoot)
  | genesis (d : Disk Key Val) (j : Nat) : History m chain lag d → d.next = 0 →
      History m chain lag { d with world := d.world.writes (m.alloc.take j) }
  | process (d : Disk Key Val) (calls : List (Nat × List Tick)) : History m chain lag d → HonestCalls chain calls →
      (∀ i, (session m calls (restart d)).next + lag ≤ i → (session m calls (restart d)).hashes i = none) →
      History m chain lag (session m calls (restart d))

/-- The blocks a manager gives in successive calls, if all succeed. -/
def Manager.pull : List (Nat → Option (List Block)) → Manager → Option (List Block)
  | [], _ => some []
  | f :: fs, m =>
    match m.getNext f with
    | (none, _) => none
    | (some b, m') => (m'.pull fs).map (b :: ·)

end Verif.Execution
