import Verif.Model.Store
import Verif.Model.StateContent

/-! # The storage of the state network (crates/subnetworks/state/src/storage.rs)

`K` is keccak256. Ids are those of the underlying store (`Env.idOf`). Metrics and log messages are left
out, as are the error texts. -/

namespace Verif.StateStore
open Verif.Store Verif.StateContent

/-- `ShouldWeStoreContent` (crates/storage/src/lib.rs:22-29). -/
inductive Should where
  | store | notWithinRadius | alreadyStored
deriving DecidableEq, Repr

/-- What `put` of the state storage returns. -/
inductive Err where
  /-- the content does not decode -/
  | decode
  /-- `ContentStoreError::InvalidData` -/
  | invalidData
  /-- an error of the underlying store -/
  | store (e : Store.Err)
deriving DecidableEq, Repr

/-- `put_account_trie_node` (storage.rs:96-128) up to the insertion. -/
def convertAccount (K : Bytes → Id) (nodeHash : Id) : Value → Except Err Bytes
  | .accountTrieNode proof _ =>
    match proof.getLast? with
    | none => .error .invalidData
    | some last => if K last ≠ nodeHash then .error .invalidData else .ok (Value.trieNode last).encode
  | _ => .error .invalidData

/-- `put_contract_storage_trie_node` (storage.rs:130-165) up to the insertion. -/
def convertStorage (K : Bytes → Id) (nodeHash : Id) : Value → Except Err Bytes
  | .storageTrieNode storageProof _ _ =>
    match storageProof.getLast? with
    | none => .error .invalidData
    | some last => if K last ≠ nodeHash then .error .invalidData else .ok (Value.trieNode last).encode
  | _ => .error .invalidData

/-- `put_contract_bytecode` (storage.rs:167-199) up to the insertion. -/
def convertBytecode (K : Bytes → Id) (codeHash : Id) : Value → Except Err Bytes
  | .bytecodeWithProof code _ _ =>
    if K code ≠ codeHash then .error .invalidData else .ok (Value.bytecode code).encode
  | _ => .error .invalidData

/-- `StateStorage::put` (storage.rs:31-52) up to the insertion: the bytes that are inserted. -/
def convert (K : Bytes → Id) (key : ContentKey.State) (bs : Bytes) : Except Err Bytes :=
  match Value.decode key bs with
  | none => .error .decode
  | some v =>
    match key with
    | .accountTrieNode _ h => convertAccount K h v
    | .storageTrieNode _ _ h => convertStorage K h v
    | .bytecode _ h => convertBytecode K h v

variable (env : Store.Env) (K : Bytes → Id)

/-- `StateStorage::put` (storage.rs:31-52): pruned content is not reported. -/
def put (cfg : Config) (sps : List Speed) (s : Store) (key : ContentKey.State) (bs : Bytes) :
    Except Err (Store × List (Bytes × Bytes)) :=
  match convert K key bs with
  | .error e => .error e
  | .ok v =>
    match Store.insert env cfg sps s key.toBytes v with
    | .error e => .error (.store e)
    | .ok (s, _) => .ok (s, [])

/-- `StateStorage::get` (storage.rs:27-29). -/
def get (s : Store) (key : ContentKey.State) : Option Bytes := lookupValue s (env.idOf key.toBytes)

/-- `StateStorage::should_we_store` (storage.rs:54-69). State keys are affected by the radius
(`affected_by_radius`, content_key/state.rs:68-70). -/
def shouldStore (cfg : Config) (s : Store) (key : ContentKey.State) : Should :=
  if s.radius < distance cfg (env.idOf key.toBytes) then .notWithinRadius
  else if hasContent s (env.idOf key.toBytes) then .alreadyStored
  else .store

/-- What can happen to the state storage: a `put`, a restart with another configuration, a kill during a
`put`. There is no deletion. -/
inductive Op where
  | put (sps : List Speed) (key : ContentKey.State) (bs : Bytes)
  | restart (tries : List (Config × List Speed)) (cfg : Config) (sps : List Speed)
  | kill (sps : List Speed) (key : ContentKey.State) (bs : Bytes) (turns : Option Nat)
      (tries : List (Config × List Speed)) (cfg : Config) (sps' : List Speed)

/-- One operation. A refused `put` leaves the storage as it is; killed during one that is refused, it is
opened as it was. -/
def step (st : Config × Store) : Op → Except Store.Err (Config × Store)
  | .put sps key bs =>
    match put env K st.1 sps st.2 key bs with
    | .ok (s, _) => .ok (st.1, s)
    | .error (.store .insufficientRadius) => .ok st
    | .error (.store e) => .error e
    | .error _ => .ok st
  | .restart tries cfg sps => Store.step env st (.restart tries cfg sps)
  | .kill sps key bs turns tries cfg sps' =>
    match convert K key bs with
    | .ok v => Store.step env st (.kill sps key.toBytes v turns tries cfg sps')
    | .error _ => Store.step env st (.restart tries cfg sps')

def run : Config × Store → List Op → Except Store.Err (Config × Store)
  | st, [] => .ok st
  | st, op :: ops =>
    match step env K st op with
    | .ok st => run st ops
    | .error e => .error e

end Verif.StateStore
