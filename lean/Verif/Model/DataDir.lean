import Verif.Model.Hex
import Verif.Model.NodeConfig

/-!
# Data directories and the node's key (`crates/portalnet/src/utils/db.rs`, `crates/utils/src/dir.rs`)

Several processes of the node start on one machine, in any interleaving; every access to the file system is a step, and a
process may be stopped at any step, by an error of the file system or by a crash. Nobody else changes the files, and the
files are not removed. Paths are lists of names from the root. Strings in files are lists of characters (all of them
ASCII where the program writes them).
-/

namespace Verif.DataDir
open Verif.Hex (hexEncode hexDecode hexBody digit)
open Verif.Events (Network)

abbrev Name := List Char
abbrev Path := List Name

inductive Node where
  | dir
  | file (content : List Char)
deriving DecidableEq, Repr

abbrev Fs := Path → Option Node

/-- A change at one path. -/
def Fs.set (fs : Fs) (p : Path) (n : Node) : Fs := fun q => if q = p then some n else fs q

/-- `mkdir` that accepts an existing directory; `none`: a file is in the way. -/
def mkdir (fs : Fs) (p : Path) : Option Fs :=
  match fs p with
  | some .dir => some fs
  | some (.file _) => none
  | none => some (fs.set p .dir)

/-- The directories below `done` along a list of names. -/
def mkdirsFrom (fs : Fs) (done : Path) : List Name → Option Fs
  | [] => mkdir fs done
  | n :: rest => (mkdir fs done).bind fun fs => mkdirsFrom fs (done ++ [n]) rest

/-- `fs::create_dir_all`: when it fails because of a file, the directories above the file were there before, so nothing
has changed. -/
def mkdirs (fs : Fs) (p : Path) : Option Fs := mkdirsFrom fs [] p

/-- What the operating system and the signature library provide: the directory for temporary files, the default data
directory (dir.rs:38-40), whether bytes are a secret key (`secp256k1_from_bytes`), and the node id of a key
(`Enr::empty(..).node_id()`, which does not fail). -/
structure Sys where
  tempDir : Path
  defaultDir : Option Path
  isKey : Bytes → Bool
  nodeId : Bytes → Id

/-- A start of the node: the flags and the environment variable. -/
structure Options where
  dataDir : Option Path
  envVar : Option Path
  ephemeral : Bool
  privateKey : Option Bytes
  network : Network

/-- `APP_NAME` (version.rs:1). -/
def appName : Name := ['t', 'r', 'i', 'n']

/-- `UNSAFE_PRIVATE_KEY_FILE_NAME` (db.rs:16). -/
def keyFileName : Name := "unsafe_private_key.hex".toList

/-- db.rs:69. -/
def keyFile (dir : Path) : Path := dir ++ [keyFileName]

/-- The name of the directory in `get_node_data_dir` (db.rs:53-63). -/
def nodeDirName (network : Network) (id : Id) : Name :=
  (if network = .mainnet then [] else NodeConfig.showNetwork network ++ ['_']) ++ ['t', 'r', 'i', 'n', '_'] ++
    (hexBody digit id.bytes).take 8

/-- `get_node_data_dir` (db.rs:52-64). -/
def nodeDir (dir : Path) (network : Network) (id : Id) : Path := dir ++ [nodeDirName network id]

/-- Where a process is: before `configure_trin_data_dir`; before `configure_node_data_dir` with the data directory; in
`get_application_private_key` before the file is created, before it is written, before it is read (db.rs:70-75); before
the node's directory is created (db.rs:47); configured; ended with an error; crashed. -/
inductive Phase where
  | start
  | configure (dir : Path)
  | create (dir : Path) (key : Bytes)
  | write (dir : Path) (key : Bytes)
  | read (dir : Path)
  | makeDir (dir : Path) (key : Bytes)
  | running (dir : Path) (node : Path) (key : Bytes)
  | failed
  | crashed
deriving DecidableEq, Repr

structure Proc where
  options : Options
  phase : Phase

/-- `configure_trin_data_dir` and `setup_data_dir` (db.rs:18-28, dir.rs:14-30, 53-58); `name` is the random name of a
temporary directory. A name that exists is not taken (`TempDir::new_in` tries another): nothing happens. -/
def setupDir (sys : Sys) (fs : Fs) (o : Options) (name : Name) : Option (Fs × Phase) :=
  if o.dataDir.isSome && o.envVar.isSome then some (fs, .failed)
  else
    let dir := o.dataDir.or o.envVar
    if o.ephemeral then
      let temp := dir.getD sys.tempDir ++ [appName]
      match mkdirs fs temp with
      | none => some (fs, .failed)
      | some fs => if (fs (temp ++ [name])).isSome then none else some (fs.set (temp ++ [name]) .dir, .configure (temp ++ [name]))
    else
      match dir.or sys.defaultDir with
      | none => some (fs, .failed)
      | some dir =>
        match mkdirs fs dir with
        | none => some (fs, .failed)
        | some fs => some (fs, .configure dir)

/-- The key in a file (db.rs:75-77). -/
def parseKey (sys : Sys) (content : List Char) : Option Bytes :=
  match hexDecode content with
  | .ok bs => if sys.isKey bs then some bs else none
  | .error _ => none

/-- What is in the file after the first `n` characters of a text were written over it from the start. -/
def overwrite (n : Nat) (text old : List Char) : List Char := text.take n ++ old.drop (min n text.length)

def Fs.content (fs : Fs) (p : Path) : List Char :=
  match fs p with
  | some (.file c) => c
  | _ => []

/-- The next step of a process without errors of the file system; `gen` is the key that would be generated. -/
def advance (sys : Sys) (fs : Fs) (o : Options) (name : Name) (gen : Bytes) : Phase → Option (Fs × Phase)
  | .start => setupDir sys fs o name
  | .configure dir =>
    match o.privateKey with
    | some k => if sys.isKey k then some (fs, .makeDir dir k) else some (fs, .failed)
    | none =>
      if (fs (keyFile dir)).isSome then some (fs, .read dir)
      else if sys.isKey gen then some (fs, .create dir gen) else none
  | .create dir key =>
    match fs (keyFile dir) with
    | some .dir => some (fs, .failed)
    | _ => some (fs.set (keyFile dir) (.file []), .write dir key)
  | .write dir key =>
    some (fs.set (keyFile dir) (.file (overwrite (hexEncode key).length (hexEncode key) (fs.content (keyFile dir)))), .read dir)
  | .read dir =>
    match fs (keyFile dir) with
    | some (.file content) =>
      match parseKey sys content with
      | some k => some (fs, .makeDir dir k)
      | none => some (fs, .failed)
    | _ => some (fs, .failed)
  | .makeDir dir key =>
    let node := nodeDir dir o.network (sys.nodeId key)
    match mkdirs fs node with
    | none => some (fs, .failed)
    | some fs => some (fs, .running dir node key)
  | _ => none

/-- A process is stopped by an error of the file system (`crash = false`) or from outside; when it was writing, the first
`n` characters may have been written (not all of them). -/
def halt (fs : Fs) (n : Nat) (crash : Bool) (ph : Phase) : Fs × Phase :=
  let last := if crash then Phase.crashed else .failed
  match ph with
  | .write dir key =>
    (fs.set (keyFile dir) (.file (overwrite (min n ((hexEncode key).length - 1)) (hexEncode key) (fs.content (keyFile dir)))), last)
  | .running _ _ _ => (fs, .crashed)
  | .failed => (fs, .failed)
  | .crashed => (fs, .crashed)
  | _ => (fs, last)

structure State where
  fs : Fs
  procs : List Proc

inductive Event where
  | spawn (o : Options)
  | step (i : Nat) (name : Name) (gen : Bytes)
  | halt (i : Nat) (n : Nat) (crash : Bool)

/-- One event; one that is not possible changes nothing. -/
def step (sys : Sys) (s : State) : Event → State
  | .spawn o => { s with procs := s.procs ++ [⟨o, .start⟩] }
  | .step i name gen =>
    match s.procs[i]? with
    | none => s
    | some p =>
      match advance sys s.fs p.options name gen p.phase with
      | none => s
      | some (fs, ph) => ⟨fs, s.procs.set i { p with phase := ph }⟩
  | .halt i n crash =>
    match s.procs[i]? with
    | none => s
    | some p =>
      let r := halt s.fs n crash p.phase
      ⟨r.1, s.procs.set i { p with phase := r.2 }⟩

def run (sys : Sys) (s : State) (es : List Event) : State := es.foldl (step sys) s

end Verif.DataDir
