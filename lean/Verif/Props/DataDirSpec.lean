import Verif.Model.DataDir

/-! # Specification of data directories and keys -/

namespace Verif.Props.Identity
open Verif Verif.DataDir

/-- Process `i` was started without a private key and is running in a data directory with a key. -/
def Runs (s : State) (i : Nat) (dir : Path) (key : Bytes) : Prop :=
  ∃ p node, s.procs[i]? = some p ∧ p.options.privateKey = none ∧ p.phase = .running dir node key

/-- The key file of a directory holds a key. -/
def Holds (sys : Sys) (fs : Fs) (dir : Path) (key : Bytes) : Prop :=
  ∃ content, fs (dir ++ ["unsafe_private_key.hex".toList]) = some (.file content) ∧
    Hex.hexDecode content = .ok key ∧ sys.isKey key = true

/-- The process is about to make or fill the key file of the directory. -/
def Writes (p : Proc) (dir : Path) : Prop := ∃ key, p.phase = .create dir key ∨ p.phase = .write dir key

/-- The process has ended or is running. -/
def Settled (p : Proc) : Prop := (∃ d n k, p.phase = .running d n k) ∨ p.phase = .failed ∨ p.phase = .crashed

/-- One start at a time, and none is stopped while it fills the key file. -/
def Orderly (sys : Sys) : State → List Event → Prop
  | _, [] => True
  | s, e :: es =>
    (match e with
     | .spawn _ => ∀ p ∈ s.procs, Settled p
     | .halt i _ _ => ∀ p, s.procs[i]? = some p → ∀ d k, p.phase ≠ .write d k
     | .step _ _ _ => True) ∧ Orderly sys (step sys s e) es

/-- The data directory that the options of a start ask for. -/
def Wanted (sys : Sys) (o : Options) (dir : Path) : Prop :=
  ¬ (o.dataDir.isSome ∧ o.envVar.isSome) ∧
  if o.ephemeral then ∃ name, dir = ((o.dataDir.or o.envVar).getD sys.tempDir) ++ ["trin".toList, name]
  else some dir = (o.dataDir.or o.envVar).or sys.defaultDir

/-- The directory of a process, once it has one. -/
def HasDir (p : Proc) (dir : Path) : Prop :=
  p.phase = .configure dir ∨ (∃ k, p.phase = .create dir k) ∨ (∃ k, p.phase = .write dir k) ∨ p.phase = .read dir ∨
    (∃ k, p.phase = .makeDir dir k) ∨ ∃ n k, p.phase = .running dir n k

end Verif.Props.Identity
