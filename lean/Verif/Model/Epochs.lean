/-! # Block ranges to epochs (bin/portal-bridge/src/types/range.rs) -/

namespace Verif.Epochs

/-- One iteration of the loop (range.rs:23-40) for `epoch`; `none` is the overflow panic of
`epoch_first_block + SLOTS_PER_HISTORICAL_ROOT - 1` in a build with overflow checks (without them the
sum wraps around and back, giving the same value as the unbounded arithmetic). -/
def epochPart (start stop epoch : Nat) : Option (Nat × Option (Nat × Nat)) :=
  let first := epoch * 8192
  if first + 8192 < 2 ^ 64 then
    let last := first + 8192 - 1
    if first ≥ start ∧ last ≤ stop then some (epoch, none)
    else some (epoch, some (max start first, min stop last))
  else none

/-- `block_range_to_epochs` (range.rs:15-43): the map as a list of entries, one per iteration (the
epochs are different, so no insertion overwrites another). `mapM` yields `none` (panic) if an
iteration panics. -/
def blockRangeToEpochs (start stop : Nat) : Option (List (Nat × Option (Nat × Nat))) :=
  (List.range' (start / 8192) (stop / 8192 + 1 - start / 8192)).mapM (epochPart start stop)

end Verif.Epochs
