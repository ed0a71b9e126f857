/-! # Splitting the storage capacity (crates/storage/src/config.rs) -/

namespace Verif.Capacity

/-- `Subnetwork` (crates/ethportal-api/src/types/network.rs:49-58). -/
inductive Subnetwork where
  | history | beacon | legacyHistory | state | canonicalIndices | verkleState
  | transactionGossip | utp
deriving DecidableEq, Repr

/-- `StorageCapacityConfig` (config.rs:14-24). The `u32` megabyte values are naturals here; with them
below `2^32` the `u64` product `10^6 * mb * weight` cannot overflow. -/
inductive Config where
  | combined (totalMb : Nat) (subnetworks : List Subnetwork)
  | specific (beaconMb legacyHistoryMb stateMb : Option Nat)
deriving Repr

/-- Errors: `refused` is `ContentStoreError::Database`, `panic` the `unreachable!`. -/
inductive Err where
  | refused
  | panic
deriving DecidableEq, Repr

/-- `BYTES_IN_MB_U64` (config.rs:10). -/
def bytesInMb : Nat := 1000 * 1000

/-- `get_capacity_weight` (config.rs:111-118), with the weights of config.rs:35-37. -/
def capacityWeight : Subnetwork → Except Err Nat
  | .legacyHistory => .ok 1
  | .state => .ok 1
  | .beacon => .ok 0
  | _ => .error .panic

/-- The `map(..).sum()` of config.rs:70-73. -/
def totalWeight : List Subnetwork → Except Err Nat
  | [] => .ok 0
  | s :: ss =>
    match capacityWeight s with
    | .error e => .error e
    | .ok w =>
      match totalWeight ss with
      | .error e => .error e
      | .ok t => .ok (w + t)

/-- `PortalStorageConfigFactory::create` (config.rs:54-109), the `storage_capacity_bytes` of the
result. -/
def create (cfg : Config) (sub : Subnetwork) : Except Err Nat :=
  match cfg with
  | .combined totalMb subnetworks =>
    if !subnetworks.contains sub then .error .refused
    else
      match capacityWeight sub with
      | .error e => .error e
      | .ok w =>
        match totalWeight subnetworks with
        | .error e => .error e
        | .ok total => if total = 0 then .ok 0 else .ok (bytesInMb * totalMb * w / total)
  | .specific beaconMb legacyHistoryMb stateMb =>
    let capacityMb := match sub with
      | .beacon => beaconMb
      | .legacyHistory => legacyHistoryMb
      | .state => stateMb
      | _ => none
    match capacityMb with
    | some mb => .ok (mb * bytesInMb)
    | none => .error .refused

end Verif.Capacity
