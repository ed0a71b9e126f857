import Verif.Lemmas.BeaconStore
import Verif.Lemmas.ExceptEq

/-! # C27: the beacon store

Specification: `Props/BeaconStoreSpec.lean`. A history is any list of insertions (with any value under
any key, any of the writes may fail), prunings and restarts. -/

namespace Verif.Props
open Verif.BeaconStore BeaconSpec

variable {U F O : Type} {c : Codec U F O} {hist : List Op} {st : State F O}

/-- Whatever was put into the store, the node can open it again. -/
theorem C27_reopens (c : Codec U F O) (hist : List Op) : ∃ st, run c init hist = some st := by
  obtain ⟨st, h, _⟩ := reach_inv c hist
  exact ⟨st, h⟩

private theorem inv_of_run (h : run c init hist = some st) :
    Inv c st (fun root => bootRecord c root hist)
      (fun p => updateRecord c p hist) (sumRecord c hist) (finRecord c hist) (optRecord c hist) := by
  obtain ⟨st', h1, h2⟩ := reach_inv c hist
  rw [h, Option.some.injEq] at h1
  rw [h1]; exact h2

private theorem lookupBoot_row (st : State F O) (root : Bytes) :
    lookupBoot st root = (bootRow st root).map (·.1) := by
  unfold lookupBoot bootRow
  cases st.boots.find? fun r => decide (r.root = root) <;> rfl

/-- A bootstrap is looked up by its header root: the first one written is returned until it is
pruned. -/
theorem C27_bootstrap (h : run c init hist = some st) (root : Bytes) :
    get c st (.bootstrap root) = .ok ((bootRecord c root hist).map (·.1)) := by
  rw [BeaconStore.get, lookupBoot_row, (inv_of_run h).boots]

/-- A bootstrap that was written for a new root is returned, whatever happens later, as long as no
pruning passes its slot. -/
theorem C27_bootstrap_kept {pre post : List Op} {key value root : Bytes} {slot : UInt64}
    {w : Nat → Bool} (h : run c init (pre ++ .put (.bootstrap key) value w :: post) = some st)
    (hd : c.decBoot value = some (slot, root)) (hs : slot.toNat < 2 ^ 63) (hw : w 0 = true)
    (hnew : bootRecord c root pre = none) (hp : ∀ t, Op.prune t ∈ post → t ≤ slot.toNat) :
    get c st (.bootstrap root) = .ok (some value) := by
  rw [C27_bootstrap h]
  have key : ∀ ops : List Op, (∀ t, Op.prune t ∈ ops → t ≤ slot.toNat) →
      ops.foldl (bootStep c root) (some (value, slot.toNat)) = some (value, slot.toNat) := by
    intro ops
    induction ops with
    | nil => intro _; rfl
    | cons op ops ih =>
      intro ho
      rw [List.foldl_cons]
      have : bootStep c root (some (value, slot.toNat)) op = some (value, slot.toNat) := by
        cases op with
        | put k v w => cases k <;> rfl
        | restart => rfl
        | prune t =>
          have := ho t List.mem_cons_self
          simp [bootStep, Option.filter, this]
      rw [this]
      exact ih fun t ht => ho t (List.mem_cons_of_mem _ ht)
  unfold bootRecord at hnew ⊢
  rw [List.foldl_append, hnew, List.foldl_cons, bootStep, hd]
  rw [Option.none_or, Option.bind_some, if_pos ⟨rfl, hs, hw⟩, key post hp]
  rfl

/-- Updates are returned exactly when all periods of the range (at most 128) are stored: then they are
the first ones written for each period, in order. -/
theorem C27_updates (h : run c init hist = some st) (hc : UpdateCodec c) (start count : UInt64)
    (hr : start.toNat + count.toNat ≤ 2 ^ 63) (hn : count.toNat ≤ 128) (x : Bytes) :
    get c st (.updates start count) = .ok (some x) ↔
      ∃ us : List U, us.length = count.toNat ∧
        (∀ i < count.toNat, updateRecord c (start.toNat + i) hist = us[i]?) ∧ x = c.encUpdates us := by
  rw [BeaconStore.get, periods_eq _ _ (by omega)]
  rcases collect_spec (inv_of_run h).updates hc count.toNat start.toNat [] hr with
    ⟨us, h1, h2, h3⟩ | ⟨⟨i, hi, hno⟩, h3⟩
  · rw [h3]
    dsimp only
    rw [List.nil_append, if_pos (by omega)]
    constructor
    · intro he
      simp only [Except.ok.injEq, Option.some.injEq] at he
      exact ⟨us, h1, h2, he.symm⟩
    · rintro ⟨us', e1, e2, rfl⟩
      have : us' = us := by
        apply List.ext_getElem?
        intro j
        rcases Nat.lt_or_ge j count.toNat with hj | hj
        · rw [← h2 j hj, ← e2 j hj]
        · rw [List.getElem?_eq_none (by omega), List.getElem?_eq_none (by omega)]
      rw [this]
  · rw [h3]
    constructor
    · intro he; cases he
    · rintro ⟨us, e1, e2, _⟩
      have := e2 i hi
      rw [hno] at this
      rw [eq_comm, List.getElem?_eq_none_iff] at this
      omega

/-- A range with a missing period is reported as not stored. -/
theorem C27_updates_missing (h : run c init hist = some st) (hc : UpdateCodec c) (start count : UInt64)
    (hr : start.toNat + count.toNat ≤ 2 ^ 63) {i : Nat} (hi : i < count.toNat)
    (hno : updateRecord c (start.toNat + i) hist = none) :
    get c st (.updates start count) = .ok none := by
  rw [BeaconStore.get, periods_eq _ _ (by omega)]
  rcases collect_spec (inv_of_run h).updates hc count.toNat start.toNat [] hr with
    ⟨us, h1, h2, h3⟩ | ⟨_, h3⟩
  · have := h2 i hi
    rw [hno, eq_comm, List.getElem?_eq_none_iff] at this
    omega
  · rw [h3]

/-- What is put for a new range is returned for it, whatever happens later. -/
theorem C27_updates_kept {pre post : List Op} {start count : UInt64} {value : Bytes} {us : List U}
    {w : Nat → Bool} (h : run c init (pre ++ .put (.updates start count) value w :: post) = some st)
    (hc : UpdateCodec c) (hr : start.toNat + count.toNat ≤ 2 ^ 63) (hn : count.toNat ≤ 128)
    (hd : c.decUpdates value = some us) (hl : us.length = count.toNat) (hw : ∀ i, w i = true)
    (hnew : ∀ i < count.toNat, updateRecord c (start.toNat + i) pre = none) :
    get c st (.updates start count) = .ok (some (c.encUpdates us)) := by
  rw [C27_updates h hc _ _ hr hn]
  refine ⟨us, hl, ?_, rfl⟩
  intro i hi
  have key : ∀ (ops : List Op) (u : U), ops.foldl (updateStep c (start.toNat + i)) (some u) = some u := by
    intro ops u
    induction ops with
    | nil => rfl
    | cons op ops ih =>
      rw [List.foldl_cons]
      have : updateStep c (start.toNat + i) (some u) op = some u := by
        cases op with
        | put k v w => cases k <;> rfl
        | restart => rfl
        | prune t => rfl
      rw [this]; exact ih
  have hn' := hnew i hi
  unfold updateRecord at hn' ⊢
  rw [List.foldl_append, hn', List.foldl_cons, updateStep, hd]
  simp only [Option.none_or, Option.bind_some]
  rw [if_pos ⟨by omega, by omega, by omega, by omega, hw _⟩, Nat.add_sub_cancel_left,
    List.getElem?_eq_getElem (by omega), key]

/-- A finality update is returned exactly when the last one put since the start is of the last fork
and finalizes the requested slot or a later one. -/
theorem C27_finality (h : run c init hist = some st) (slot : UInt64) (x : Bytes) :
    get c st (.finality slot) = .ok (some x) ↔
      ∃ f s, finRecord c hist = some f ∧ c.electraSlot f = some s ∧ slot ≤ s ∧ x = c.encFin f := by
  rw [BeaconStore.get, getFinality, (inv_of_run h).fin]
  cases hf : finRecord c hist with
  | none => simp
  | some f =>
    dsimp only
    cases he : c.electraSlot f with
    | none =>
      simp only [Option.map_none, Except.ok.injEq, reduceCtorEq, false_iff, not_exists, not_and]
      intro f' s hff hs
      simp only [Option.some.injEq] at hff
      subst hff; rw [he] at hs; cases hs
    | some s =>
      dsimp only
      by_cases hs : slot ≤ s
      · rw [if_pos hs]
        simp only [Option.map_some, Except.ok.injEq, Option.some.injEq]
        constructor
        · rintro rfl; exact ⟨f, s, rfl, he, hs, rfl⟩
        · rintro ⟨f', s', rfl, _, _, rfl⟩; rfl
      · rw [if_neg hs]
        simp only [Option.map_none, Except.ok.injEq, reduceCtorEq, false_iff, not_exists, not_and]
        intro f' s' hff hs' hle
        simp only [Option.some.injEq] at hff
        subst hff
        rw [he, Option.some.injEq] at hs'
        subst hs'; exact absurd hle hs

/-- An optimistic update is returned exactly when the last one put since the start has the requested
signature slot or a later one. -/
theorem C27_optimistic (h : run c init hist = some st) (slot : UInt64) (x : Bytes) :
    get c st (.optimistic slot) = .ok (some x) ↔
      ∃ o, optRecord c hist = some o ∧ slot ≤ c.sigSlot o ∧ x = c.encOpt o := by
  rw [BeaconStore.get, getOptimistic, (inv_of_run h).opt]
  cases hf : optRecord c hist with
  | none => simp
  | some o =>
    dsimp only
    by_cases hs : slot ≤ c.sigSlot o
    · rw [if_pos hs]
      simp only [Option.map_some, Except.ok.injEq, Option.some.injEq]
      constructor
      · rintro rfl; exact ⟨o, rfl, hs, rfl⟩
      · rintro ⟨o', rfl, _, rfl⟩; rfl
    · rw [if_neg hs]
      simp only [Option.map_none, Except.ok.injEq, reduceCtorEq, false_iff, not_exists, not_and]
      intro o' ho hle
      simp only [Option.some.injEq] at ho
      subst ho; exact absurd hle hs

/-- Historical summaries are returned exactly when the last ones written are for the requested epoch
or a later one, also after restarts. -/
theorem C27_summaries (h : run c init hist = some st) (epoch : UInt64) (he : epoch.toNat < 2 ^ 63)
    (x : Bytes) :
    get c st (.summaries epoch) = .ok (some x) ↔
      ∃ e, sumRecord c hist = some (e, x) ∧ epoch.toNat ≤ e := by
  rw [BeaconStore.get, lookupSummaries, sqlInt, if_pos he, (inv_of_run h).sums]
  cases hs : sumRecord c hist with
  | none => simp
  | some r =>
    dsimp only
    by_cases hle : epoch.toNat ≤ r.1
    · rw [if_pos hle]
      simp only [Except.ok.injEq, Option.some.injEq]
      constructor
      · rintro rfl; exact ⟨r.1, rfl, hle⟩
      · rintro ⟨e, rfl, _⟩; rfl
    · rw [if_neg hle]
      simp only [Except.ok.injEq, Option.some.injEq, reduceCtorEq, false_iff, not_exists, not_and]
      rintro e rfl; exact hle

/-- An offered key other than an update range is declined as already stored exactly when a lookup of
it returns content. -/
theorem C27_offer (c : Codec U F O) (st : State F O) (key : Key)
    (hk : ∀ start count, key ≠ .updates start count) :
    shouldWeStore c st key = .ok .alreadyStored ↔ ∃ x, get c st key = .ok (some x) := by
  cases key with
  | updates s n => exact absurd rfl (hk s n)
  | bootstrap root =>
    rw [shouldWeStore, BeaconStore.get]
    cases lookupBoot st root <;> simp
  | finality slot =>
    rw [shouldWeStore, BeaconStore.get]
    cases getFinality c st slot <;> simp
  | optimistic slot =>
    rw [shouldWeStore, BeaconStore.get]
    cases ho : getOptimistic c st slot with
    | none => simp
    | some o =>
      have : slot ≤ c.sigSlot o := by
        unfold getOptimistic at ho
        split at ho
        · cases ho
        · split at ho
          · simp only [Option.some.injEq] at ho; subst ho; assumption
          · cases ho
      simp [this]
  | summaries epoch =>
    rw [shouldWeStore, BeaconStore.get]
    cases hl : lookupSummaries st epoch with
    | error e => simp
    | ok r => cases r <;> simp

/-- An offered update range is declined as already stored exactly when one of its periods is stored. -/
theorem C27_offer_range (h : run c init hist = some st) (start count : UInt64)
    (hr : start.toNat + count.toNat ≤ 2 ^ 63) :
    shouldWeStore c st (.updates start count) = .ok .alreadyStored ↔
      ∃ i < count.toNat, (updateRecord c (start.toNat + i) hist).isSome = true := by
  rw [shouldWeStore, periods_eq _ _ (by omega), anyStored_spec _ _ hr]
  have hu := (inv_of_run h).updates
  simp only [hu, Option.isSome_map]
  by_cases ha : (List.range count.toNat).any (fun i => (updateRecord c (start.toNat + i) hist).isSome) = true
  · rw [if_pos ha]
    rw [List.any_eq_true] at ha
    obtain ⟨i, hi, hs⟩ := ha
    exact ⟨fun _ => ⟨i, by simpa using hi, hs⟩, fun _ => rfl⟩
  · rw [if_neg ha]
    simp only [Except.ok.injEq, reduceCtorEq, false_iff, not_exists, not_and]
    intro i hi hs
    exact ha (List.any_eq_true.2 ⟨i, by simpa using hi, hs⟩)

/-! ## Concrete cases -/

namespace BeaconExample

/-- A toy codec: a bootstrap is its slot and its root, updates and cached updates are their slot. -/
def codec : Codec UInt8 UInt8 UInt8 where
  decBoot v := match v with
    | a :: rest => some (UInt64.ofNat a.toNat, rest)
    | [] => none
  decUpdate v := match v with
    | [a] => some a
    | _ => none
  encUpdate a := [a]
  decUpdates v := some v
  encUpdates l := l
  decFin v := v.head?
  encFin a := [a]
  electraSlot a := some (UInt64.ofNat a.toNat)
  decOpt v := v.head?
  encOpt a := [a]
  sigSlot a := UInt64.ofNat a.toNat
  decSum v := !v.isEmpty

theorem codec_updates : UpdateCodec codec := fun _ => rfl

def yes : Nat → Bool := fun _ => true

def history : List Op :=
  [.put (.bootstrap [1, 2]) [7, 1, 2] yes, .put (.updates 5 3) [50, 60, 70] yes,
   .put (.finality 3) [9] yes, .restart, .put (.summaries 4) [1, 1] yes, .put (.optimistic 3) [8] yes,
   .put (.bootstrap [1, 2]) [8, 1, 2] yes, .prune 7]

def after : State UInt8 UInt8 := (run codec init history).getD init

theorem history_runs : run codec init history = some after := by
  obtain ⟨st, h⟩ := C27_reopens codec history
  rw [after, h]; rfl

example : get codec after (.bootstrap [1, 2]) = .ok (some [7, 1, 2]) :=
  C27_bootstrap_kept (pre := []) (post := history.drop 1) (slot := 7) (w := yes) (key := [1, 2])
    history_runs (by decide +kernel) (by decide) rfl rfl (by
      intro t ht
      simp [history] at ht
      subst ht; decide)

example : get codec after (.updates 5 3) = .ok (some [50, 60, 70]) ∧
    get codec after (.updates 6 2) = .ok (some [60, 70]) ∧
    get codec after (.updates 6 3) = .ok none ∧
    get codec after (.finality 0) = .ok none ∧
    get codec after (.optimistic 8) = .ok (some [8]) ∧ get codec after (.optimistic 9) = .ok none ∧
    get codec after (.summaries 4) = .ok (some [1, 1]) ∧ get codec after (.summaries 5) = .ok none := by
  decide +kernel

end BeaconExample

open BeaconExample

/-- A range of which a part is stored is declined when offered and not returned when asked for: its
missing periods can only come with other ranges. -/
theorem C27_partial_range_violated :
    ∃ (hist : List Op) (st : State UInt8 UInt8), run codec init hist = some st ∧
      shouldWeStore codec st (.updates 5 2) = .ok .alreadyStored ∧
      get codec st (.updates 5 2) = .ok none :=
  ⟨[.put (.updates 5 1) [50] yes], _, rfl, by decide +kernel, by decide +kernel⟩

/-- A range that passes 2^64 is answered with the empty list of updates from the empty store, and a
batch put for it is dropped with success. -/
theorem C27_wrapping_range_violated :
    get codec init (.updates (0 - 1) 2) = .ok (some []) ∧
    put codec init (.updates (0 - 1) 2) [50, 60] yes = (init, .ok ()) := by
  decide +kernel

/-- A bootstrap is stored under the root of its header whatever the key: a put under another key
succeeds, and the key remains unknown. -/
theorem C27_bootstrap_key_violated :
    ∃ (key value : Bytes), (put codec init (.bootstrap key) value yes).2 = .ok () ∧
      get codec (put codec init (.bootstrap key) value yes).1 (.bootstrap key) = .ok none ∧
      shouldWeStore codec (put codec init (.bootstrap key) value yes).1 (.bootstrap key) = .ok .store :=
  ⟨[3, 3], [7, 1, 2], by decide +kernel⟩

/-- Older content replaces newer: after a finality update for slot 9 one for slot 4 makes slot 9
unknown, and likewise for summaries. -/
theorem C27_regress_violated :
    ∃ (hist : List Op) (st : State UInt8 UInt8), hist =
        [.put (.finality 9) [9] yes, .put (.finality 4) [4] yes,
         .put (.summaries 9) [1, 1] yes, .put (.summaries 4) [2, 2] yes] ∧
      run codec init hist = some st ∧ get codec st (.finality 9) = .ok none ∧
      get codec st (.summaries 9) = .ok none :=
  ⟨_, _, rfl, rfl, by decide +kernel, by decide +kernel⟩

/-- A failed write of an update is not reported: the put succeeds, the range stays unknown. -/
theorem C27_lost_update_violated :
    (put codec init (.updates 5 1) [50] (fun _ => false)).2 = .ok () ∧
      get codec (put codec init (.updates 5 1) [50] (fun _ => false)).1 (.updates 5 1) = .ok none := by
  decide +kernel

end Verif.Props
