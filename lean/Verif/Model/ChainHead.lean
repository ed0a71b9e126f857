/-! # Head of the chain (crates/validation/src/chain_head/store.rs, chain_head/mod.rs,
crates/ethportal-api/src/types/consensus/historical_summaries.rs) -/

namespace Verif.ChainHead

/-- A light client header: its slot and everything else (`payload`). -/
structure Header where
  slot : Nat
  payload : Nat
deriving DecidableEq, Repr

/-- `ChainHeadStore` (chain_head/store.rs:13-18) without the metrics; a historical summary is an
opaque value `σ`. -/
structure Store (σ : Type) where
  latest : Header
  finalized : Header
  summaries : List σ

/-- `update_latest_if_newer` (store.rs:34-40). -/
def Store.updateLatest {σ} (s : Store σ) (h : Header) : Store σ :=
  if s.latest.slot < h.slot then { s with latest := h } else s

/-- `update_finalized_if_newer` (store.rs:42-48). -/
def Store.updateFinalized {σ} (s : Store σ) (h : Header) : Store σ :=
  if s.finalized.slot < h.slot then { s with finalized := h } else s

/-- `update_historical_summaries_if_newer` (store.rs:57-64). -/
def Store.updateSummaries {σ} (s : Store σ) (l : List σ) : Store σ :=
  if s.summaries.length < l.length then { s with summaries := l } else s

/-- `CAPELLA_FORK_EPOCH * SLOTS_PER_EPOCH` (consensus/constants.rs). -/
abbrev capellaSlot : Nat := 194048 * 32

/-- `historical_summary_index` (historical_summaries.rs:45-52). -/
def historicalSummaryIndex (slot : Nat) : Option Nat :=
  if slot < capellaSlot then none else some ((slot - capellaSlot) / 8192)

/-- `historical_summary` (store.rs:50-55). -/
def Store.historicalSummary {σ} (s : Store σ) (slot : Nat) : Option σ :=
  match historicalSummaryIndex slot with
  | none => none
  | some i => s.summaries[i]?

/-- The public operations (chain_head/mod.rs:66-97). Each takes the write lock for its whole
duration, so they are atomic to readers. -/
inductive Op (σ : Type) where
  | update (attested finalized : Header)
  | optimisticUpdate (attested : Header)
  | finalityUpdate (attested finalized : Header)
  | summaries (l : List σ)

/-- `process_update`, `process_optimistic_update`, `process_finality_update`,
`update_historical_summaries` (chain_head/mod.rs:66-97). -/
def Store.step {σ} (s : Store σ) : Op σ → Store σ
  | .update a f => (s.updateLatest a).updateFinalized f
  | .optimisticUpdate a => s.updateLatest a
  | .finalityUpdate a f => (s.updateLatest a).updateFinalized f
  | .summaries l => s.updateSummaries l

def Store.run {σ} (s : Store σ) (ops : List (Op σ)) : Store σ := ops.foldl Store.step s

end Verif.ChainHead
