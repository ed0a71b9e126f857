import Verif.Model.E2ss

/-! # The tool that checks state snapshots (`crates/e2store/src/bin/e2ss-stats.rs`)

The reader is that of `Verif.E2ss`. Printing is left out: the result is what is printed in the end. Counters are `usize` and
count things that are in a file, so they do not overflow. -/

namespace Verif.E2ss
open Verif.E2store

/-- `Stats` (e2ss-stats.rs:19-25). -/
structure Stats where
  accounts : Nat
  bytecodes : Nat
  storageEntries : Nat
  storageItems : Nat
deriving DecidableEq, Repr

/-- `Stats::default` (e2ss-stats.rs:19, :47). -/
def Stats.zero : Stats := ⟨0, 0, 0, 0⟩

/-- The check of the order of the items of an entry (e2ss-stats.rs:94-102); gives the last hash. -/
def checkItems : Id → List StorageItem → Res Id
  | last, [] => .ok last
  | last, i :: l => if i.index.toNat > last.toNat then checkItems i.index l else .panic

variable (c : Codecs)

/-- The loop over the storage entries of an account (e2ss-stats.rs:71-103), with the entries left in front. -/
def statParts (count : Nat) : Nat → Nat → Id → Stats → Reader → Res (Stats × Reader)
  | 0, _, _, st, r => .ok (st, r)
  | n + 1, index, last, st, r =>
    match r.next c with
    | .ok (some (.storage items), r) =>
      let st := { st with storageEntries := st.storageEntries + 1, storageItems := st.storageItems + items.length }
      if index + 1 < count ∧ items.length ≠ maxItems then .panic
      else (checkItems last items).bind fun last => statParts count n (index + 1) last st r
    | .ok _ => .err
    | .err => .err
    | .panic => .panic

/-- The loop over the accounts (e2ss-stats.rs:45-108). Each round reads at least 8 bytes, so that one more than the bytes is
enough rounds. -/
def statLoop (K : Bytes → Id) : Nat → Id → Stats → Reader → Res Stats
  | 0, _, _, _ => .panic
  | fuel + 1, last, st, r =>
    match r.next c with
    | .err => .err
    | .panic => .panic
    | .ok (none, _) => .ok st
    | .ok (some (.storage _), _) => .err
    | .ok (some (.account a), r) =>
      let st := { st with accounts := st.accounts + 1 }
      if ¬ a.addressHash.toNat > last.toNat then .panic
      else if K a.bytecode ≠ a.state.codeHash then .panic
      else
        let st := if a.bytecode.isEmpty then st else { st with bytecodes := st.bytecodes + 1 }
        (statParts c a.storageCount.toNat a.storageCount.toNat 0 0 st r).bind fun x =>
          statLoop K fuel a.addressHash x.1 x.2

/-- `main` (e2ss-stats.rs:34-112) on the bytes of a file: what is printed. -/
def stats (K : Bytes → Id) (file : Bytes) : Res Stats :=
  (Reader.open c file).bind fun x => statLoop c K (x.2.rem.length + 1) 0 Stats.zero x.2

end Verif.E2ss
