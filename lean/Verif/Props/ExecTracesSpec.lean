import Verif.Model.ExecTraces
import Verif.Props.ExecutionSpec
import Verif.Props.BridgeCliSpec

/-! # Specification of the command `trin-execution` and its traces -/

namespace Verif.Props.ExecTracesSpec
open Verif Verif.Execution Verif.ExecTraces
open Verif.DataDir (Path Fs)
open Verif.Props.BridgeSpec (Numeral)

/-- The texts of a choice: `none`, `all`, and `block:` with a number. -/
def Text (text : List Char) : ToTrace → Prop
  | .none => text = "none".toList
  | .all => text = "all".toList
  | .block n => ∃ x, Numeral x n ∧ text = "block:".toList ++ x

/-- The choice asks for the traces of a block. -/
def Asks (choice : ToTrace) (n : Nat) : Prop := choice = .all ∨ choice = .block n

/-- The directory of the traces of a block. -/
def traceDir (root : Path) (n : Nat) : Path := root ++ ["evm_traces".toList, "block_".toList ++ Nat.toDigits 10 n]

/-- The file of the trace of a transaction. -/
def traceFile (root : Path) (n : Nat) (hash : Bytes) : Path :=
  root ++ ["evm_traces".toList, "block_".toList ++ Nat.toDigits 10 n,
    "tx_0x".toList ++ (hash.flatMap fun b => [Nat.digitChar (b.toNat / 16), Nat.digitChar (b.toNat % 16)]) ++ ".json".toList]

/-- No file is where the directories of traces have to be, and no directory where the files have to be. -/
def Clear (root : Path) (fs : Fs) : Prop :=
  (∀ n q text, q <+: traceDir root n → fs q ≠ some (.file text)) ∧ ∀ n hash, fs (traceFile root n hash) ≠ some .dir

/-- All downloads give blocks of the chain. -/
def HonestRounds (chain : Nat → Block) (rs : List Round) : Prop := ∀ r ∈ rs, Honest chain r.tick.fetch

/-- What a file system may be after blocks `first`, `first + 1`, … up to `last` were executed in these rounds: a path is as
before; or it is the trace of a transaction of one of these blocks that was asked for, with what its tracer wrote; or it is
a new directory for such traces. -/
def OnlyTraces (chain : Nat → Block) (txs : Block → List Bytes) (choice : ToTrace) (root : Path) (first last : Nat)
    (rs : List Round) (fs fs' : Fs) : Prop :=
  ∀ p, fs' p = fs p ∨
    (∃ n hash r, first ≤ n ∧ n ≤ last ∧ n ≠ 0 ∧ Asks choice n ∧ hash ∈ txs (chain n) ∧ rs[n - first]? = some r ∧
      r.fault hash = .none ∧ p = traceFile root n hash ∧ fs' p = some (.file (r.output hash))) ∨
    (fs p = none ∧ fs' p = some .dir ∧ ∃ n, first ≤ n ∧ n ≤ last ∧ n ≠ 0 ∧ Asks choice n ∧ txs (chain n) ≠ [] ∧
      p <+: traceDir root n)

/-- The flags are understood: the last block (if one is given) and the choice of traces. -/
def Understood (f : Flags) (last : Nat) (choice : ToTrace) : Prop :=
  (f.lastBlock = none ∧ last = 20868946 ∨ ∃ t, f.lastBlock = some t ∧ Numeral t last) ∧
  (f.blockToTrace = none ∧ choice = .none ∨ ∃ t, f.blockToTrace = some t ∧ Text t choice)

/-- How the command ends when its work on the database in `dir` ended in this way. -/
def ending {Key Val : Type} (dir : Path) (r : Outcome × Node Key Val) (fs : Fs) : Exit Key Val :=
  match r.1 with
  | .done => .ended dir true r.2.disk fs
  | .failed => .ended dir false r.2.disk fs
  | .interrupted => .crashed dir r.2.disk fs

end Verif.Props.ExecTracesSpec
