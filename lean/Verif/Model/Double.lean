import Verif.Model.Store

/-! # Doubles, and the pruning strategy computed with them (crates/storage/src/versioned/id_indexed_v1/pruning_strategy.rs)

`f64` of Rust is binary64 of IEEE 754. The finite doubles that are not negative are multiples of 2^-1074, so a natural number
stands for each of them, the one that has to be multiplied with 2^-1074. Every operation rounds its exact result to the nearest
double, and to the one with the even significand if two are equally near. Infinity, which no value of the pruning strategy comes
near, is left out: the model has doubles with every exponent. -/

namespace Verif.Double

/-- The double 1. -/
def one : Nat := 2 ^ 1074

/-- The integer nearest to `p / q`, the even one of two. -/
def nearest (p q : Nat) : Nat :=
  let d := p / q
  let r := p % q
  if 2 * r < q then d else if q < 2 * r then d + 1 else if d % 2 = 0 then d else d + 1

/-- The exponent of the double below `p / q`: significands have 53 binary digits. -/
def expo (p q : Nat) : Nat := (p / q).log2 - 52

/-- The double nearest to `p / q`. -/
def round (p q : Nat) : Nat := nearest p (q * 2 ^ expo p q) * 2 ^ expo p q

/-- `n as f64`. -/
def ofNat (n : Nat) : Nat := round (n * one) 1

/-- A literal. -/
def lit (p q : Nat) : Nat := round (p * one) q

def add (a b : Nat) : Nat := round (a + b) 1
/-- For `b ≤ a`. -/
def sub (a b : Nat) : Nat := round (a - b) 1
def mul (a b : Nat) : Nat := round (a * b) one
def div (a b : Nat) : Nat := round (a * one) b

/-- `f64::round`, halves up. -/
def whole (a : Nat) : Nat := (2 * a + one) / (2 * one)

/-- `f64::floor`. -/
def floor (a : Nat) : Nat := a / one

/-- `as u64`, which saturates. -/
def asU64 (n : Nat) : Nat := min n (2 ^ 64 - 1)

end Verif.Double

namespace Verif.Store
open Verif.Double (ofNat lit add sub mul div whole floor asU64)

/-- The computations of the pruning strategy with the default fractions 0.95 and 0.2 (pruning_strategy.rs:26-28). -/
def Arith.double : Arith where
  /- `target_capacity_bytes` (pruning_strategy.rs:104-108) -/
  target c := asU64 (whole (mul (ofNat c) (lit 95 100)))
  /- `estimate_to_delete_until_target` (pruning_strategy.rs:169-178) with `average_entry_disk_usage_bytes`
  (usage_stats.rs:45-52) -/
  fit t n total extra := asU64 (floor (div (ofNat t) (add (div (ofNat total) (ofNat n)) (ofNat extra))))
  /- `observe_pruning_duration` (pruning_strategy.rs:146-163) -/
  scale sp m := match sp with
    | .fast => asU64 (whole (mul (add Double.one (lit 2 10)) (ofNat m)))
    | .optimal => m
    | .slow => asU64 (whole (mul (sub Double.one (lit 2 10)) (ofNat m)))

/-- `max_pruning_count` of a new strategy (pruning_strategy.rs:94-101) after pruning statements of the given speeds. -/
def limitAfter (env : Env) (m : Nat) (speeds : List Speed) : Nat := speeds.foldl (fun m sp => observe env sp m) m

end Verif.Store
