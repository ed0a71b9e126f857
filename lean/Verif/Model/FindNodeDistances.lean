import Verif.Model.Distance

/-! # Distances of a FIND_NODES request (crates/portalnet/src/find/query_info.rs) -/

namespace Verif

/-- The `while` loop of `findnode_log2distance` (query_info.rs:116-126) with the mutable
`result_list` and `difference` as arguments. `fuel` bounds the number of iterations; `none` would
be fuel exhausted, i.e. an endless loop (proved impossible for the fuel used below). -/
def log2DistanceLoop (distance size : Nat) : Nat → Nat → List Nat → Option (List Nat)
  | 0, _, result => if result.length < size then none else some result
  | fuel + 1, difference, result =>
    if result.length < size then
      let result := if distance + difference ≤ 256 then result ++ [distance + difference] else result
      let result :=
        if result.length < size then
          if difference ≤ distance then result ++ [distance - difference] else result
        else result
      log2DistanceLoop distance size fuel (difference + 1) result
    else some result

/-- Outcome of `findnode_log2distance`. -/
inductive Log2Distances where
  | panic
  | selfTarget
  | ok (distances : List Nat)
deriving DecidableEq, Repr

/-- `findnode_log2distance` (query_info.rs:104-128). `panic` is the `size > 127` panic, or (never, by
the theorem) a loop that does not end; `selfTarget` is the `None` of `log2_distance` for equal ids.
`Key::log2_distance` is `distLog2` of the xor distance. -/
def findnodeLog2Distance (target peer : Id) (size : Nat) : Log2Distances :=
  if size > 127 then .panic
  else match distLog2 (xorDistance peer target) with
    | none => .selfTarget
    | some distance =>
      match log2DistanceLoop distance size 127 1 [distance] with
      | none => .panic
      | some result => .ok (result.take size)

end Verif
