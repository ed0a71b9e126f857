/-! # Store versions (crates/storage/src/versioned/utils.rs, versioned/mod.rs, versioned/sql.rs) -/

namespace Verif.StoreVersion

/-- `ContentType` (versioned/mod.rs:20-27), the key of the `store_info` table. -/
inductive ContentType where
  | state | legacyHistoryEternal | legacyHistoryEphemeral
deriving DecidableEq, Repr

/-- `StoreVersion` (versioned/mod.rs:38-49). -/
inductive Version where
  | mockContentStore | idIndexedV1 | ephemeralV1
deriving DecidableEq, Repr

/-- The `store_info` table (versioned/sql.rs:3-17): one row per content type. -/
abbrev StoreInfo := ContentType → Option Version

inductive Err where
  | unsupportedMigration (old new : Version)
  | createFailed
deriving DecidableEq, Repr

/-- `update_store_info` (utils.rs:47-60), `INSERT OR REPLACE`. -/
def updateStoreInfo (db : StoreInfo) (ct : ContentType) (v : Version) : StoreInfo :=
  fun c => if c = ct then some v else db c

/-- `migrate_from` of all stores in the repository (id_indexed_v1/store.rs:72-81,
ephemeral_v1/store.rs:39-48, versioned/utils.rs:72-81): always the error. -/
def migrateFrom (old new : Version) : Except Err Unit := .error (.unsupportedMigration old new)

/-- `create_store` (utils.rs:10-31) for a store with version `v`. SQL errors (a failing disk) are not
modelled; `createOk` is the outcome of `S::create`. Returns the table and the outcome. -/
def createStore (db : StoreInfo) (ct : ContentType) (v : Version) (createOk : Bool) :
    StoreInfo × Except Err Version :=
  let fin (db : StoreInfo) : StoreInfo × Except Err Version :=
    (db, if createOk then .ok v else .error .createFailed)
  match db ct with
  | some old =>
    if v ≠ old then
      match migrateFrom old v with
      | .error e => (db, .error e)
      | .ok _ => fin (updateStoreInfo db ct v)
    else fin db
  | none => fin (updateStoreInfo db ct v)

/-- A history of opens, possibly by different builds of the program. -/
def run (db : StoreInfo) : List (ContentType × Version × Bool) → StoreInfo
  | [] => db
  | (ct, v, ok) :: ops => run (createStore db ct v ok).1 ops

end Verif.StoreVersion
