import Verif.Model.Archive
import Verif.Model.EvmDb
import Verif.Model.HeadGen

/-! # State snapshots (E2SS files)

The file format in `crates/e2store/src/e2ss.rs`, and the subcommands that export the state of the execution client and
import it into an empty database: `bin/trin-execution/src/subcommands/e2ss/{export,import}.rs`.

RLP and snappy are arbitrary functions (`Codecs`). The trie library is the one of `Verif.EvmDb` (`Lib`), with its
iterators (`Iter`). As there, the account trie is kept as its content: that the trie which is opened again from the root
in the execution position has the content it had when it was committed is not modelled. What is downloaded is an input.
Logging and progress are left out, as are errors of the file system and of RocksDB. -/

namespace Verif.E2ss
open Verif.E2store Verif.Archive Verif.Trie Verif.EvmDb

/-- The execution header; `rest` stands for the fields that are not looked at. -/
structure Header where
  number : UInt64
  stateRoot : Id
  rest : Bytes
deriving DecidableEq, Repr

/-- `AccountEntry` (e2ss.rs:224-230). -/
structure AccountEntry where
  addressHash : Id
  state : Account
  bytecode : Bytes
  storageCount : UInt32
deriving DecidableEq, Repr

/-- `StorageItem` (e2ss.rs:281-285). -/
structure StorageItem where
  index : Id
  value : Word
deriving DecidableEq, Repr

/-- `AccountOrStorageEntry` (e2ss.rs:218-222). -/
inductive Item where
  | account (a : AccountEntry)
  | storage (items : List StorageItem)
deriving DecidableEq, Repr

/-- RLP followed by snappy (e2ss.rs:232-268, 287-323; types.rs:13-44). -/
structure Codecs where
  header : Codec Header
  account : Codec AccountEntry
  storage : Codec (List StorageItem)

/-- entry_types.rs:48-54. -/
def compressedAccount : UInt16 := 0x0800
def compressedStorage : UInt16 := 0x0900

/-- `MAX_STORAGE_ITEMS` (e2ss.rs:54). -/
def maxItems : Nat := 10000000

/-! ## Files -/

/-- The name of the file (e2ss.rs:72-76). -/
def fileName (h : Header) : List Char :=
  "mainnet-".toList ++
    (List.replicate (10 - (HeadGen.decimal h.number.toNat).length) '0' ++ HeadGen.decimal h.number.toNat) ++
    '-' :: (Hex.hexBody Hex.digit (h.stateRoot.bytes.take 4) ++ ".e2ss".toList)

/-- `E2SSWriter` (e2ss.rs:60-67), with the bytes written. -/
structure Writer where
  written : Bytes
  pending : UInt32
deriving DecidableEq, Repr

variable (c : Codecs)

/-- `E2SSWriter::create` (e2ss.rs:70-92) for a file that does not exist. -/
def Writer.create (h : Header) : Res Writer :=
  (appendEntry [] versionEntry).bind fun w =>
    (appendEntry w (toEntry compressedHeader c.header h)).map fun w => ⟨w, 0⟩

/-- The check of the number of items (e2ss.rs:113-123). -/
def chunkFits (pending : UInt32) (n : Nat) : Bool :=
  if pending = 0 then false
  else if pending = 1 then n ≤ maxItems
  else n == maxItems

/-- `E2SSWriter::append_entry` (e2ss.rs:98-132). After an error the writer is not used further by its callers. -/
def Writer.append (w : Writer) : Item → Res Writer
  | .account a =>
    if w.pending = 0 then
      (appendEntry w.written (toEntry compressedAccount c.account a)).map fun b => ⟨b, a.storageCount⟩
    else .err
  | .storage items =>
    if chunkFits w.pending items.length then
      (appendEntry w.written (toEntry compressedStorage c.storage items)).map fun b => ⟨b, w.pending - 1⟩
    else .err

def Writer.appendAll : Writer → List Item → Res Writer
  | w, [] => .ok w
  | w, i :: is => (w.append c i).bind fun w => w.appendAll is

/-- `E2SSReader` (e2ss.rs:143-150), with the bytes not yet read. -/
structure Reader where
  rem : Bytes
  pending : UInt32
deriving DecidableEq, Repr

/-- `?` on the result of the streaming reader. -/
def nextOrErr (bs : Bytes) : Res (Entry × Bytes) :=
  match nextEntry bs with
  | .ok r => .ok r
  | .error _ => .err

/-- `E2SSReader::open` (e2ss.rs:153-166). -/
def Reader.open (bs : Bytes) : Res (Header × Reader) :=
  (nextOrErr bs).bind fun r => (readVersion r.1).bind fun _ =>
    (nextOrErr r.2).bind fun r => (fromEntry compressedHeader c.header r.1).map fun h => (h, ⟨r.2, 0⟩)

/-- `E2SSReader::next` (e2ss.rs:176-216): everything that is not the end aborts. -/
def Reader.next (r : Reader) : Res (Option Item × Reader) :=
  if r.pending = 0 then
    match nextEntry r.rem with
    | .error .eof => .ok (none, r)
    | .error .badHeader => .panic
    | .ok (e, rest) =>
      match fromEntry compressedAccount c.account e with
      | .ok a => .ok (some (.account a), ⟨rest, a.storageCount⟩)
      | _ => .panic
  else
    match nextEntry r.rem with
    | .error _ => .panic
    | .ok (e, rest) =>
      match fromEntry compressedStorage c.storage e with
      | .ok s => .ok (some (.storage s), ⟨rest, r.pending - 1⟩)
      | _ => .panic

/-- The iteration to its end. Each round reads at least 8 bytes, so that one more than the bytes is enough rounds. -/
def Reader.items : Nat → Reader → Res (List Item)
  | 0, _ => .panic
  | n + 1, r =>
    (r.next c).bind fun x =>
      match x.1 with
      | none => .ok []
      | some i => (Reader.items n x.2).map (i :: ·)

/-- Header and items of a file. -/
def readFile (bs : Bytes) : Res (Header × List Item) :=
  (Reader.open c bs).bind fun x => (Reader.items c (x.2.rem.length + 1) x.2).map fun is => (x.1, is)

/-! ## Export -/

/-- `EthTrie::iter`: of the account trie, and of a storage trie (`none` is an error). -/
structure Iter where
  accounts : (Id → Option Bytes) → List (Id × Bytes)
  slots : Nodes → Id → Option (List (Id × Bytes))

/-- `chunks` of the standard library. Each round takes at least one item, so that the length is enough rounds. -/
def chunksAux {α : Type} (n : Nat) : Nat → List α → List (List α)
  | 0, _ => []
  | f + 1, l => if l.isEmpty then [] else l.take n :: chunksAux n f (l.drop n)

def chunks {α : Type} (n : Nat) (l : List α) : List (List α) := chunksAux n l.length l

variable (lib : Lib)

/-- The code of an account (export.rs:84-91): `expect` aborts. -/
def exportCode (db : Db) (a : Account) : Res Bytes :=
  if a.codeHash = lib.K [] then .ok []
  else
    match db.kv a.codeHash.bytes with
    | some code => .ok code
    | none => .panic

/-- The values of the slots (export.rs:100-107): `expect` aborts. -/
def decodeItems : List (Id × Bytes) → Res (List StorageItem)
  | [] => .ok []
  | e :: l =>
    match lib.decodeWord e.2 with
    | some v => (decodeItems l).map (⟨e.1, v⟩ :: ·)
    | none => .panic

/-- The storage of an account (export.rs:93-109). -/
def exportStorage (it : Iter) (db : Db) (addressHash : Id) (a : Account) : Res (List StorageItem) :=
  if a.storageRoot = lib.emptyRoot then .ok []
  else
    match it.slots (nodesOf lib db.kv addressHash) a.storageRoot with
    | none => .err
    | some l => decodeItems lib l

/-- The entries of one account (export.rs:79-124); `div_ceil`, then `as u32` cuts. -/
def exportAccount (it : Iter) (db : Db) (e : Id × Bytes) : Res (List Item) :=
  match lib.decodeAccount e.2 with
  | none => .err
  | some a =>
    (exportCode lib db a).bind fun code =>
      (exportStorage lib it db e.1 a).map fun storage =>
        .account ⟨e.1, a, code, UInt32.ofNat ((storage.length + maxItems - 1) / maxItems)⟩ ::
          (chunks maxItems storage).map .storage

/-- The loop of `export` (export.rs:78-130). -/
def exportLoop (it : Iter) (db : Db) : List (Id × Bytes) → Writer → Res Writer
  | [], w => .ok w
  | e :: l, w => (exportAccount lib it db e).bind fun is => (w.appendAll c is).bind fun w => exportLoop it db l w

/-- What is on disk: the flat database, the account trie at the root of the execution position, and that position
(execution_position.rs:15-24; the version is left out). -/
structure Disk where
  kv : Kv
  trie : Id → Option Bytes
  next : UInt64
  root : Id

/-- `EvmDB::new` (evm_db.rs:53-82) on what is on disk. -/
def Disk.open (d : Disk) : Db :=
  { cacheChanges := false
    kv := Kv.put (Kv.put d.kv (lib.K []).bytes []) (Id.bytes 0) []
    trie := d.trie
    storageCache := fun _ => []
    newContracts := fun _ => none }

/-- A new data directory (execution_position.rs:59-67). -/
def Disk.fresh : Disk := { kv := fun _ => none, trie := fun _ => none, next := 0, root := lib.emptyRoot }

/-- `StateExporter::new` and `export` (export.rs:37-135): the name of the file and its bytes. `header` is what is
downloaded for a block number, `taken` says whether there is a file of this name. -/
def exportState (it : Iter) (header : UInt64 → Option Header) (taken : List Char → Bool) (d : Disk) :
    Res (List Char × Bytes) :=
  if d.next = 0 then .err
  else
    match header (d.next - 1) with
    | none => .err
    | some h =>
      let db := d.open lib
      if lib.rootOf db.trie ≠ h.stateRoot then .err
      else if taken (fileName h) then .err
      else
        (Writer.create c h).bind fun w =>
          (exportLoop c lib it db (it.accounts db.trie) w).map fun w => (fileName h, w.written)

/-! ## Import -/

/-- An item as an insertion into the storage trie (import.rs:88-94). -/
def itemEntry (i : StorageItem) : Id × Option Bytes := (i.index, some (lib.encodeWord i.value))

/-- Insertions followed by `root_hash` (import.rs:88-98, 101): the database and the root; `none` is an error. -/
def commitItems (addressHash : Id) (kv : Kv) (root : Id) (items : List StorageItem) : Option (Kv × Id) :=
  (lib.update (nodesOf lib kv addressHash) (if root = lib.emptyRoot then none else some root)
    (items.map (itemEntry lib))).map fun d =>
      (d.removed.foldl (removeNode lib addressHash) (d.inserted.foldl (insertNode lib addressHash) kv), d.root)

/-- The loop over the storage entries of an account (import.rs:83-99). -/
def storageLoop (addressHash : Id) : Nat → Reader → Kv → Id → Kv × Res (Id × Reader)
  | 0, r, kv, root => (kv, .ok (root, r))
  | n + 1, r, kv, root =>
    match r.next c with
    | .ok (some (.storage items), r) =>
      match commitItems lib addressHash kv root items with
      | none => (kv, .err)
      | some (kv, root) => storageLoop addressHash n r kv root
    | .ok _ => (kv, .err)
    | .err => (kv, .err)
    | .panic => (kv, .panic)

/-- What follows for an account when its storage is in the database (import.rs:101-126). -/
def finishAccount (db : Db) (a : AccountEntry) (root : Id) : Db × Bool :=
  match commitItems lib a.addressHash db.kv root [] with
  | none => (db, false)
  | some (kv, root) =>
    let db := { db with kv }
    if root ≠ a.state.storageRoot then (db, false)
    else if a.state.codeHash ≠ lib.K a.bytecode then (db, false)
    else
      let db := if a.bytecode.isEmpty then db else { db with kv := db.kv.put (lib.K a.bytecode).bytes a.bytecode }
      (db.putAccount lib a.addressHash a.state, true)

/-- The loop of `import_state` (import.rs:68-136). `nodes k` are the nodes of the account trie that are written after
`k` accounts; `n` is the number of accounts so far. -/
def importLoop (nodes : Nat → List Bytes) : Nat → Nat → Reader → Db → Db × Res Nat
  | 0, _, _, db => (db, .panic)
  | fuel + 1, n, r, db =>
    match r.next c with
    | .err => (db, .err)
    | .panic => (db, .panic)
    | .ok (none, _) => (db, .ok n)
    | .ok (some (.storage _), _) => (db, .err)
    | .ok (some (.account a), r) =>
      match storageLoop c lib a.addressHash a.storageCount.toNat r db.kv lib.emptyRoot with
      | (kv, .err) => ({ db with kv }, .err)
      | (kv, .panic) => ({ db with kv }, .panic)
      | (kv, .ok (root, r)) =>
        match finishAccount lib { db with kv } a root with
        | (db, false) => (db, .err)
        | (db, true) =>
          importLoop nodes fuel (n + 1) r (if (n + 1) % 1000 = 0 then (commitTrie lib db (nodes (n + 1))).2 else db)

/-- `import_state` (import.rs:61-147), on the opened database. -/
def importState (nodes : Nat → List Bytes) (file : Bytes) (db : Db) : Db × Res Header :=
  match Reader.open c file with
  | .err => (db, .err)
  | .panic => (db, .panic)
  | .ok (h, r) =>
    match importLoop c lib nodes (r.rem.length + 1) 0 r db with
    | (db, .err) => (db, .err)
    | (db, .panic) => (db, .panic)
    | (db, .ok n) =>
      match commitTrie lib db (nodes n) with
      | (root, db) => if h.stateRoot ≠ root then (db, .err) else (db, .ok h)

/-- The loop of `import_last_256_block_hashes` (import.rs:153-159); `block n` is number and hash of the block that is
downloaded as block `n` (`get_next_block`, Model/Execution). -/
def hashLoop (block : UInt64 → Option (UInt64 × Id)) : Nat → UInt64 → Kv → Kv × Res Unit
  | 0, _, kv => (kv, .ok ())
  | k + 1, n, kv =>
    match block n with
    | none => (kv, .err)
    | some b => hashLoop block k (n + 1) (kv.put (lib.K (numberBytes b.1)).bytes b.2.bytes)

/-- `import_last_256_block_hashes` (import.rs:150-162), with `BLOCKHASH_SERVE_WINDOW` (block_executor.rs:36). -/
def importHashes (block : UInt64 → Option (UInt64 × Id)) (number : UInt64) (kv : Kv) : Kv × Res Unit :=
  let first := if number ≤ 256 then 0 else number - 256
  hashLoop lib block (number.toNat - first.toNat + 1) first kv

/-- `StateImporter::new` and `import` (import.rs:29-59): the position is written after the state and before the block
hashes (execution_position.rs:51-57; the number after the last `u64` overflows, which aborts with overflow checks). -/
def importAll (nodes : Nat → List Bytes) (block : UInt64 → Option (UInt64 × Id)) (file : Bytes) (d : Disk) :
    Disk × Res Header :=
  if d.next ≠ 0 then (d, .err)
  else
    match importState c lib nodes file (d.open lib) with
    | (db, .err) => ({ d with kv := db.kv }, .err)
    | (db, .panic) => ({ d with kv := db.kv }, .panic)
    | (db, .ok h) =>
      if h.number.toNat + 1 = 2 ^ 64 then ({ d with kv := db.kv }, .panic)
      else
        match importHashes lib block h.number db.kv with
        | (kv, r) => (⟨kv, db.trie, h.number + 1, h.stateRoot⟩, r.map fun _ => h)

end Verif.E2ss
