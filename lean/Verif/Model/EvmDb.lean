import Verif.Model.Trie
import Verif.Model.Distance

/-! # The database of the execution client

`bin/trin-execution/src/storage/{evm_db,account_db,trie_db,execution_position}.rs`, and the block hashes of
`bin/trin-execution/src/evm/block_executor.rs`.

RocksDB is a map from byte strings to byte strings; its I/O errors are left out. The trie library (`eth_trie`) and RLP
are parameters (`Lib`). -/

namespace Verif.EvmDb
open Verif.Trie

abbrev Address := BitVec 160
abbrev Word := BitVec 256

/-- The bytes of an address. -/
def addressBytes (a : Address) : Bytes := toBe 20 a.toNat

/-- RocksDB. -/
abbrev Kv := Bytes → Option Bytes

/-- The database of trie nodes that the library sees (`eth_trie::DB`). -/
abbrev Nodes := Id → Option Bytes

/-- What the library writes when a trie is committed: nodes to insert and to remove. -/
structure Delta where
  root : Id
  inserted : List (Id × Bytes)
  removed : List Id
deriving DecidableEq, Repr

/-- What the code depends on. -/
structure Lib where
  /-- `keccak256` -/
  K : Bytes → Id
  /-- RLP of `AccountState` (account_state.rs:9-15) -/
  encodeAccount : Account → Bytes
  decodeAccount : Bytes → Option Account
  /-- RLP of `U256` -/
  encodeWord : Word → Bytes
  decodeWord : Bytes → Option Word
  /-- `EMPTY_ROOT_HASH` -/
  emptyRoot : Id
  /-- `EthTrie::from` and `get`; `none` is an error -/
  get : Nodes → Id → Id → Option (Option Bytes)
  /-- `EthTrie::from` (or `EthTrie::new`, for no root), `insert` and `remove` in order, `root_hash_with_changed_nodes` -/
  update : Nodes → Option Id → List (Id × Option Bytes) → Option Delta
  /-- `EthTrie::from` and `clear_trie_from_db`: the removed nodes -/
  clear : Nodes → Id → Option (List Id)
  /-- The root of the account trie, by its content -/
  rootOf : (Id → Option Bytes) → Id

/-- `AccountInfo` of revm, without the code itself. -/
structure Info where
  nonce : UInt64
  balance : BitVec 256
  codeHash : Id
deriving DecidableEq, Repr

/-- `PlainStorageChangeset` of revm. -/
structure Changeset where
  address : Address
  wipe : Bool
  slots : List (Word × Word)
deriving DecidableEq, Repr

/-- The plain state of a bundle (`StateChangeset` of revm). -/
structure Bundle where
  accounts : List (Address × Option Info)
  contracts : List (Id × Bytes)
  storage : List Changeset
deriving DecidableEq, Repr

/-- `EvmDB` (evm_db.rs:39-51). The account trie is in memory: here its content, by hashed address. -/
structure Db where
  cacheChanges : Bool
  kv : Kv
  trie : Id → Option Bytes
  storageCache : Id → List Id
  newContracts : Id → Option Bytes

/-- `RocksDB::put`. -/
def Kv.put (kv : Kv) (k v : Bytes) : Kv := fun k' => if k' = k then some v else kv k'

/-- `RocksDB::delete`. -/
def Kv.delete (kv : Kv) (k : Bytes) : Kv := fun k' => if k' = k then none else kv k'

/-- `AccountDB::get` (account_db.rs:30-36). -/
def nodesOf (lib : Lib) (kv : Kv) (addressHash : Id) : Nodes := fun h =>
  if h = lib.K [] then some [0x80] else kv (addressHash.bytes ++ h.bytes)

/-- `AccountDB::insert` (account_db.rs:38-45). -/
def insertNode (lib : Lib) (addressHash : Id) (kv : Kv) (e : Id × Bytes) : Kv :=
  if e.1 = lib.K [] then kv else kv.put (addressHash.bytes ++ e.1.bytes) e.2

/-- `AccountDB::remove` (account_db.rs:47-54). -/
def removeNode (lib : Lib) (addressHash : Id) (kv : Kv) (h : Id) : Kv :=
  if h = lib.K [] then kv else kv.delete (addressHash.bytes ++ h.bytes)

variable (lib : Lib)

/-- `EvmDB::fetch_account` (evm_db.rs:334-339); `none` is an error. -/
def fetchAccount (db : Db) (addressHash : Id) : Option (Option Account) :=
  match db.kv addressHash.bytes with
  | some raw => (lib.decodeAccount raw).map some
  | none => some none

/-- Put an account into the trie and the database, in either order (evm_db.rs:143-156, 188-193, 252-259). The result
of the insertion into the trie is ignored by the code; here it succeeds. -/
def Db.putAccount (db : Db) (addressHash : Id) (a : Account) : Db :=
  { db with
    kv := db.kv.put addressHash.bytes (lib.encodeAccount a)
    trie := fun h => if h = addressHash then some (lib.encodeAccount a) else db.trie h }

/-- `commit_account` (evm_db.rs:119-160). -/
def commitAccount (db : Db) (addressHash : Id) (info : Info) : Option Db :=
  match fetchAccount lib db addressHash with
  | none => none
  | some (some existing) =>
    some (db.putAccount lib addressHash ⟨info.nonce, info.balance, existing.storageRoot, info.codeHash⟩)
  | some none => some (db.putAccount lib addressHash ⟨info.nonce, info.balance, lib.emptyRoot, info.codeHash⟩)

/-- The wiping of the storage trie (evm_db.rs:174-180): the database, and the account with the new root. -/
def wipeTrie (db : Db) (addressHash : Id) (a : Account) : Option (Db × Account) :=
  if a.storageRoot = lib.emptyRoot then some (db, a)
  else
    (lib.clear (nodesOf lib db.kv addressHash) a.storageRoot).map fun removed =>
      ({ db with kv := removed.foldl (removeNode lib addressHash) db.kv }, { a with storageRoot := lib.emptyRoot })

/-- `wipe_account_storage` (evm_db.rs:162-197). -/
def wipeAccountStorage (db : Db) (addressHash : Id) (deleteAccount : Bool) : Option Db :=
  match fetchAccount lib db addressHash with
  | none => none
  | some none => some db
  | some (some a) =>
    match wipeTrie lib db addressHash a with
    | none => none
    | some (db, a) =>
      if deleteAccount then
        some { db with
          kv := db.kv.delete addressHash.bytes
          trie := fun h => if h = addressHash then none else db.trie h }
      else some (db.putAccount lib addressHash a)

/-- One entry of the loop of `commit_accounts` (evm_db.rs:199-212). -/
def commitAccountEntry (db : Db) (e : Address × Option Info) : Option Db :=
  match e.2 with
  | some info => commitAccount lib db (lib.K (addressBytes e.1)) info
  | none => wipeAccountStorage lib db (lib.K (addressBytes e.1)) true

/-- A slot as an entry of the storage trie (evm_db.rs:231-238): `none` removes it. -/
def slotEntry (s : Word × Word) : Id × Option Bytes :=
  (lib.K (Id.bytes s.1), if s.2 = 0 then none else some (lib.encodeWord s.2))

/-- `commit_storage_changes` (evm_db.rs:214-264). -/
def commitStorageChanges (db : Db) (addressHash : Id) (slots : List (Word × Word)) : Option Db :=
  match fetchAccount lib db addressHash with
  | none => none
  | some fetched =>
    let a := fetched.getD ⟨0, 0, lib.emptyRoot, lib.K []⟩
    match lib.update (nodesOf lib db.kv addressHash) (if a.storageRoot = lib.emptyRoot then none else some a.storageRoot)
        (slots.map (slotEntry lib)) with
    | none => none
    | some delta =>
      let kv := delta.removed.foldl (removeNode lib addressHash) (delta.inserted.foldl (insertNode lib addressHash) db.kv)
      let cache := if db.cacheChanges then fun h =>
          if h = addressHash then db.storageCache h ++ delta.inserted.map (·.1) else db.storageCache h
        else db.storageCache
      some (Db.putAccount lib { db with kv := kv, storageCache := cache } addressHash { a with storageRoot := delta.root })

/-- One entry of the loop of `commit_storage` (evm_db.rs:266-287). -/
def commitStorageEntry (db : Db) (c : Changeset) : Option Db :=
  match (if c.wipe then wipeAccountStorage lib db (lib.K (addressBytes c.address)) false else some db) with
  | none => none
  | some db => if c.slots = [] then some db else commitStorageChanges lib db (lib.K (addressBytes c.address)) c.slots

/-- One contract of `commit_bundle` (evm_db.rs:312-325). -/
def commitContract (db : Db) (c : Id × Bytes) : Db :=
  { db with
    kv := db.kv.put c.1.bytes c.2
    newContracts := if db.cacheChanges then fun h => if h = c.1 then some c.2 else db.newContracts h
      else db.newContracts }

/-- `commit_bundle` (evm_db.rs:289-332); revm's reduction of a bundle to its plain state is left out. -/
def commitBundle (db : Db) (b : Bundle) : Option Db :=
  match b.accounts.foldlM (commitAccountEntry lib) db with
  | none => none
  | some db => b.storage.foldlM (commitStorageEntry lib) (b.contracts.foldl (commitContract) db)

/-- The commit of the account trie (block_executor.rs:110-119, trie_db.rs:28-37): the library writes nodes, and removes
none (`light` is false, evm_db.rs:64-68). The nodes are an input here, the root is the one of the content. -/
def commitTrie (db : Db) (nodes : List Bytes) : Id × Db :=
  (lib.rootOf db.trie, { db with kv := nodes.foldl (fun kv n => kv.put (lib.K n).bytes n) db.kv })

/-- `process_genesis` (block_executor.rs:123-146), with the parsed allocation. -/
def genesis (db : Db) (alloc : List (Address × Word)) : Db :=
  alloc.foldl (fun db e => db.putAccount lib (lib.K (addressBytes e.1)) ⟨0, e.2, lib.emptyRoot, lib.K []⟩) db

/-- The key of a block hash (evm_db.rs:414, block_executor.rs:236-238). -/
def numberBytes (n : UInt64) : Bytes := toBe 32 n.toNat

/-- `manage_block_hash_serve_window` (block_executor.rs:232-252). -/
def manageBlockHash (db : Db) (number : UInt64) (hash : Id) : Db :=
  let kv := db.kv.put (lib.K (numberBytes number)).bytes hash.bytes
  { db with kv := if number ≥ 256 then kv.delete (lib.K (numberBytes (number - 256))).bytes else kv }

/-- `EvmDB::new` on an empty database (evm_db.rs:53-82). -/
def initial (cacheChanges : Bool) : Db :=
  { cacheChanges
    kv := Kv.put (Kv.put (fun _ => none) (lib.K []).bytes []) (Id.bytes 0) []
    trie := fun _ => none
    storageCache := fun _ => []
    newContracts := fun _ => none }

/-! ## Reads -/

/-- `basic_ref` (evm_db.rs:365-378); `none` is an error. -/
def basic (db : Db) (a : Address) : Option (Option Info) :=
  (fetchAccount lib db (lib.K (addressBytes a))).map fun r => r.map fun a => ⟨a.nonce, a.balance, a.codeHash⟩

/-- `code_by_hash_ref` (evm_db.rs:380-388). -/
def codeByHash (db : Db) (hash : Id) : Option Bytes := db.kv hash.bytes

/-- `storage_ref` (evm_db.rs:390-410). -/
def storage (db : Db) (a : Address) (index : Word) : Option Word :=
  match fetchAccount lib db (lib.K (addressBytes a)) with
  | none => none
  | some none => none
  | some (some account) =>
    match (if account.storageRoot = lib.emptyRoot then some none
      else lib.get (nodesOf lib db.kv (lib.K (addressBytes a))) account.storageRoot (lib.K (Id.bytes index))) with
    | none => none
    | some none => some 0
    | some (some raw) => lib.decodeWord raw

/-- `block_hash_ref` (evm_db.rs:412-420). `from_slice` panics on other lengths: also `none`. -/
def blockHash (db : Db) (number : UInt64) : Option Id :=
  match db.kv (lib.K (numberBytes number)).bytes with
  | some raw => if raw.length = 32 then some (BitVec.ofNat 256 (fromBe raw)) else none
  | none => none

/-- `get_storage_trie_diff` (evm_db.rs:84-108). -/
def storageTrieDiff (db : Db) (addressHash : Id) : List (Id × Bytes) :=
  (db.storageCache addressHash).filterMap fun h => (db.kv (addressHash.bytes ++ h.bytes)).map fun v => (h, v)

/-- `clear_contract_cache` (evm_db.rs:114-117). -/
def clearCache (db : Db) : Db := { db with storageCache := fun _ => [], newContracts := fun _ => none }

/-! ## Histories -/

/-- What happens to the database during execution. -/
inductive Op where
  | genesis (alloc : List (Address × Word))
  | bundle (b : Bundle)
  | trie (nodes : List Bytes)
  | block (number : UInt64) (hash : Id)
  | clearCache
deriving Repr

def step (db : Db) : Op → Option Db
  | .genesis alloc => some (genesis lib db alloc)
  | .bundle b => commitBundle lib db b
  | .trie nodes => some (commitTrie lib db nodes).2
  | .block n h => some (manageBlockHash lib db n h)
  | .clearCache => some (clearCache db)

def run (cacheChanges : Bool) (ops : List Op) : Option Db := ops.foldlM (step lib) (initial lib cacheChanges)

end Verif.EvmDb
