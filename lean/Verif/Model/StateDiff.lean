import Verif.Model.TrieWalker
import Verif.Model.EvmDb

/-! # Gossip of the changes of a block

`gossip_trie_diff` of `bin/portal-bridge/src/bridge/state.rs`. -/

namespace Verif.TrieWalker
open Verif.Trie Verif.StateContent

/-- `TrieWalkerDb for HashMap` (db.rs:8-14): never an error. -/
def mapDb (entries : List (Id × Bytes)) : Db := fun h => some ((entries.find? fun e => e.1 = h).map (·.2))

variable (env : Env) (empty : Empty) (diff : Source) (blockHash : Id)

/-- The items of the changed storage of an account (state.rs:323-339): a walk over a partial trie, also if the storage
is empty. -/
def diffStorageItems (fuel : Nat) (account : Proof) (address root : Id) : Option (List Item) :=
  match Walker.newPartial root (diff.storage address) with
  | none => none
  | some w =>
    match w.all env fuel with
    | none => none
    | some proofs => proofs.mapM fun p => (storageKey env p address).map fun k => (k, storageValue blockHash account p)

/-- The item of the code of an account, if it is one of the new codes (state.rs:302-320). -/
def diffCodeItems (account : Proof) (address code : Id) : List Item :=
  if code = empty.code then []
  else
    match diff.code code with
    | none => []
    | some c => [(codeKey address code, codeValue blockHash account c)]

/-- The items for one changed node of the account trie (state.rs:280-339). -/
def diffNodeItems (fuel : Nat) (p : Proof) : Option (List Item) :=
  match accountKey env p with
  | none => none
  | some key =>
    match p.proof.getLast?.bind env.decode with
    | none => none
    | some (.leaf k value) =>
      match leafAccount env p k value with
      | none => none
      | some (address, a) =>
        (diffStorageItems env diff blockHash fuel p address a.storageRoot).map fun storage =>
          (key, accountValue blockHash p) :: (diffCodeItems empty diff blockHash p address a.codeHash ++ storage)
    | some _ => some [(key, accountValue blockHash p)]

/-- All items of `gossip_trie_diff` (state.rs:260-348), in the order of `content_idx`. The source has the changed nodes
of the account trie, the new codes (`get_newly_created_contract`) and the changed storage nodes by address
(`get_storage_trie_diff`). As in `snapshotItems`, keys and values are made for all items. -/
def diffItems (fuel : Nat) (root : Id) : Option (List Item) :=
  match Walker.newPartial root diff.trie with
  | none => none
  | some w =>
    match w.all env fuel with
    | none => none
    | some proofs => (proofs.mapM (diffNodeItems env empty diff blockHash fuel)).map List.flatten

/-- What `gossip_trie_diff` reads (state.rs:275-276, 307-309, 324): the changed nodes that the block executor returned,
and the caches of the database. -/
def diffSource (trieDiff : List (Id × Bytes)) (db : EvmDb.Db) : Source :=
  { trie := mapDb trieDiff
    code := db.newContracts
    storage := fun address => mapDb (EvmDb.storageTrieDiff db address) }

end Verif.TrieWalker
