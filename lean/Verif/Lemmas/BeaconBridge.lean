import Verif.Lemmas.BeaconBridgeGuard
import Verif.Lemmas.HeaderValidator
import Verif.Props.BeaconBridgeSpec

/-! # Lemmas about the beacon bridge -/

namespace Verif.BeaconBridge
open Verif.BeaconValue Verif.SszT Verif.Merkle
open Verif.BeaconValidator (summariesRoot)
open Verif.HeaderValidator (buildProof leNode buildProof_length buildProof_root depthFor containerRoot)
open Verif.Props.BeaconFeed

variable {Peer : Type}

/-! ## The proof of the summaries -/

theorem leaves_length (H : Id → Id → Id) (st : BeaconState) : (st.leaves H).length = 37 := by
  have h1 := st.first.2
  have h2 := st.middle.2
  have h3 := st.last.2
  simp [BeaconState.leaves, h1, h2, h3]

theorem leaves_summaries (H : Id → Id → Id) (st : BeaconState) :
    (st.leaves H).getD 27 0 = summariesRoot H st.summaries.1 := by
  have h1 := st.first.2
  have h2 := st.middle.2
  simp [BeaconState.leaves, List.getD_eq_getElem?_getD, List.getElem?_append, h1, h2]

theorem summariesProof_some (H : Id → Id → Id) (st : BeaconState) :
    ∃ p, st.summariesProof H = some p ∧
      merkleRootFromBranch H (summariesRoot H st.summaries.1) p.1 27 = stateRootOf H st := by
  have hl : (buildProof H (st.leaves H) 27).length = 6 := by
    rw [buildProof_length, leaves_length]; decide
  refine ⟨⟨_, hl⟩, by simp [BeaconState.summariesProof, hl], ?_⟩
  have := buildProof_root H (st.leaves H) 27 (by rw [leaves_length]; decide)
  rw [leaves_summaries] at this
  rw [this, containerRoot, leaves_length, show depthFor 37 = 6 by decide]
  simp [listRoot, stateRootOf, BeaconState.leaves]

/-! ## Schedules -/

theorem exec_snoc (H : Id → Id → Id) (b : Bridge Peer) (evs : List (Event Peer)) (e : Event Peer) :
    exec H b (evs ++ [e]) = apply H (exec H b evs) e := by
  simp [exec]

theorem exec_append (H : Id → Id → Id) (b : Bridge Peer) (l m : List (Event Peer)) :
    exec H b (l ++ m) = exec H (exec H b l) m := by
  simp [exec]

theorem inTime_init {H : Id → Id → Id} {point : Task → Bool} {evs : List (Event Peer)} {e : Event Peer}
    (h : InTime H point (evs ++ [e])) : InTime H point evs :=
  fun pre post he => h pre (post ++ [e]) (by simp [he])

theorem consistent_init {H : Id → Id → Id} {evs : List (Event Peer)} {e : Event Peer}
    (h : Consistent H (evs ++ [e])) : Consistent H evs :=
  fun pre i w post root st he => h pre i w (post ++ [e]) root st (by simp [he])

theorem noStateFails_init {H : Id → Id → Id} {evs : List (Event Peer)} {e : Event Peer}
    (h : NoStateFails H (evs ++ [e])) : NoStateFails H evs :=
  fun pre i w post root he => h pre i w (post ++ [e]) root (by simp [he])

/-- Induction over schedules from the end. -/
theorem snoc_induction {α} {P : List α → Prop} (h0 : P []) (hs : ∀ l a, P l → P (l ++ [a])) (l : List α) : P l := by
  have : ∀ m : List α, P m.reverse := by
    intro m
    induction m with
    | nil => exact h0
    | cons a m ih => rw [List.reverse_cons]; exact hs _ _ ih
  simpa using this l.reverse

/-- `InTime` by running through the schedule. -/
def inTimeFrom (H : Id → Id → Id) (point : Task → Bool) : Bridge Peer → List (Event Peer) → Bool
  | _, [] => true
  | b, .tick :: evs => b.tasks.all (fun t => !point t) && inTimeFrom H point (apply H b .tick) evs
  | b, .run i w :: evs => inTimeFrom H point (apply H b (.run i w)) evs

theorem inTimeFrom_spec (H : Id → Id → Id) (point : Task → Bool) (evs : List (Event Peer)) :
    ∀ b, inTimeFrom H point b evs = true → ∀ pre post, evs = pre ++ .tick :: post →
      ∀ t ∈ (exec H b pre).tasks, point t = false := by
  induction evs with
  | nil => intro b _ pre post h; simp at h
  | cons e evs ih =>
    intro b h pre post he t ht
    cases pre with
    | nil =>
      cases he
      simp only [inTimeFrom, Bool.and_eq_true, List.all_eq_true] at h
      have := h.1 t ht
      simpa using this
    | cons e' pre =>
      simp only [List.cons_append, List.cons.injEq] at he
      obtain ⟨rfl, he⟩ := he
      refine ih (apply H b e) ?_ pre post he t ht
      cases e with
      | tick => simp only [inTimeFrom, Bool.and_eq_true] at h; exact h.2
      | run i w => exact h

theorem inTime_of {H : Id → Id → Id} {point : Task → Bool} {evs : List (Event Peer)}
    (h : inTimeFrom H point Bridge.start evs = true) : InTime H point evs :=
  fun pre post he => inTimeFrom_spec H point evs _ h pre post he

/-- `Consistent` and `NoStateFails` by running through the schedule. -/
def fetchOk (H : Id → Id → Id) (w : World Peer) : Option Task → Bool
  | some (.sumFetch root) => match w.state with | some st => decide (stateRootOf H st = root) | none => false
  | _ => true

def fetchesFrom (H : Id → Id → Id) : Bridge Peer → List (Event Peer) → Bool
  | _, [] => true
  | b, .tick :: evs => fetchesFrom H (apply H b .tick) evs
  | b, .run i w :: evs => fetchOk H w b.tasks[i]? && fetchesFrom H (apply H b (.run i w)) evs

theorem fetchesFrom_spec (H : Id → Id → Id) (evs : List (Event Peer)) :
    ∀ b, fetchesFrom H b evs = true → ∀ pre i w post, evs = pre ++ .run i w :: post →
      fetchOk H w (exec H b pre).tasks[i]? = true := by
  induction evs with
  | nil => intro b _ pre i w post h; simp at h
  | cons e evs ih =>
    intro b h pre i w post he
    cases pre with
    | nil =>
      cases he
      simp only [fetchesFrom, Bool.and_eq_true] at h
      exact h.1
    | cons e' pre =>
      simp only [List.cons_append, List.cons.injEq] at he
      obtain ⟨rfl, he⟩ := he
      refine ih (apply H b e) ?_ pre i w post he
      cases e with
      | tick => exact h
      | run i w => simp only [fetchesFrom, Bool.and_eq_true] at h; exact h.2

theorem fetches_of {H : Id → Id → Id} {evs : List (Event Peer)} (h : fetchesFrom H Bridge.start evs = true) :
    Consistent H evs ∧ NoStateFails H evs := by
  refine ⟨fun pre i w post root st he ht hst => ?_, fun pre i w post root he ht => ?_⟩
  · have := fetchesFrom_spec H evs _ h pre i w post he
    rw [ht] at this
    simpa [fetchOk, hst] using this
  · have := fetchesFrom_spec H evs _ h pre i w post he
    rw [ht] at this
    intro hst
    simp [fetchOk, hst] at this

theorem log_grows (H : Id → Id → Id) (evs : List (Event Peer)) : ∀ b, ∃ more, (exec H b evs).log = b.log ++ more := by
  induction evs with
  | nil => intro b; exact ⟨[], by simp [exec]⟩
  | cons e evs ih =>
    intro b
    obtain ⟨m1, h1⟩ := ih (apply H b e)
    have : ∃ m, (apply H b e).log = b.log ++ m := by
      cases e with
      | tick => exact ⟨[], by simp [apply]⟩
      | run i w =>
        simp only [apply]
        split
        · exact ⟨[], by simp⟩
        · exact ⟨_, rfl⟩
    obtain ⟨m, hm⟩ := this
    exact ⟨m ++ m1, by show (exec H (apply H b e) evs).log = _; rw [h1, hm, List.append_assoc]⟩

/-! ## Views -/

def viewBoot : Task → G
  | .bootCheck => .check
  | .bootAsk => .ask
  | .bootCompare r => .compare r
  | .bootMark r => .mark r
  | .bootFetch r => .fetch r
  | .bootStore r => .store r
  | .bootClear => .clear
  | .bootFailed => .failed
  | _ => .out

def viewSum : Task → G
  | .sumCheck => .check
  | .sumAsk => .ask
  | .sumCompare r => .compare r
  | .sumMark r => .mark r
  | .sumFetch r => .fetch r
  | .sumStore r => .store r
  | .sumClear => .clear
  | _ => .out

def viewUpdate : Task → V
  | .updateClock => .start
  | .updateCompare _ => .start
  | .updateFetch p => .ready p
  | .updateStore p => .store p
  | _ => .out

def viewFinal : Task → V
  | .finalFetch => .start
  | .finalCompare _ => .start
  | .finalStore p => .store p
  | _ => .out

theorem step_boot (H : Id → Id → Id) (w : World Peer) (s : Shared) (t : Task) :
    GStep true (viewBoot t) s.bootBusy s.bootRoot (viewBoot (stepTask H w s t).1)
      (stepTask H w s t).2.1.bootBusy (stepTask H w s t).2.1.bootRoot (bootRoots (stepTask H w s t).2.2) := by
  cases t
  case bootCheck =>
    simp only [stepTask, stepBootstrap]
    cases h : s.bootBusy <;> simp [viewBoot, bootRoots, h] <;> constructor
  case bootAsk =>
    simp only [stepTask, stepBootstrap]
    split <;> simp [viewBoot, bootRoots] <;> constructor
  case bootCompare r =>
    simp only [stepTask, stepBootstrap]
    split
    · next h => subst h; simp [viewBoot, bootRoots]; constructor
    · next h => simp [viewBoot, bootRoots]; exact .differs _ _ _ h
  case bootFetch r =>
    simp only [stepTask, stepBootstrap]
    split <;> simp [viewBoot, bootRoots, announce] <;> constructor
  all_goals
    simp only [stepTask, stepBootstrap, stepUpdate, stepFinality, stepOptimistic, stepSummaries]
    repeat' split
  all_goals
    simp [viewBoot, bootRoots, announce] <;> constructor

theorem step_sum (reset : Bool) (H : Id → Id → Id) (w : World Peer) (s : Shared) (t : Task)
    (hr : reset = true → ∀ root, t = .sumFetch root → w.state ≠ none) :
    ∃ out, GStep reset (viewSum t) s.stateBusy s.stateRoot (viewSum (stepTask H w s t).1)
      (stepTask H w s t).2.1.stateBusy (stepTask H w s t).2.1.stateRoot out ∧
      ((∀ root st, t = .sumFetch root → w.state = some st → stateRootOf H st = root) →
        out = provenRoots H (stepTask H w s t).2.2) := by
  cases t
  case sumCheck =>
    refine ⟨[], ?_⟩
    simp only [stepTask, stepSummaries]
    cases h : s.stateBusy <;> simp [viewSum, provenRoots, h] <;> constructor
  case sumAsk =>
    refine ⟨[], ?_⟩
    simp only [stepTask, stepSummaries]
    split
    · simp [viewSum, provenRoots]; exact .askDrop _ _
    · simp [viewSum, provenRoots]; constructor
  case sumCompare r =>
    refine ⟨[], ?_⟩
    simp only [stepTask, stepSummaries]
    split
    · next h => subst h; simp [viewSum, provenRoots]; constructor
    · next h => simp [viewSum, provenRoots]; exact .differs _ _ _ h
  case sumFetch r =>
    simp only [stepTask, stepSummaries]
    split
    · next h =>
      refine ⟨[], .fetchDrop _ _ _ ?_, fun _ => by simp [provenRoots]⟩
      cases hre : reset
      · rfl
      · exact absurd h (hr hre r rfl)
    · next st h =>
      obtain ⟨p, hp, he⟩ := summariesProof_some H st
      simp only [hp]
      refine ⟨[r], .fetched _ _ _, fun hc => ?_⟩
      simp [provenRoots, announce, he, hc r st rfl h]
  all_goals
    refine ⟨[], ?_⟩
    simp only [stepTask, stepBootstrap, stepUpdate, stepFinality, stepOptimistic, stepSummaries]
    repeat' split
  all_goals
    simp [viewSum, provenRoots, announce] <;> constructor

theorem step_update (H : Id → Id → Id) (w : World Peer) (s : Shared) (t : Task) :
    VStep (viewUpdate t) s.period (viewUpdate (stepTask H w s t).1) (stepTask H w s t).2.1.period
      (periods (stepTask H w s t).2.2) := by
  cases t
  case updateCompare p =>
    simp only [stepTask, stepUpdate]
    repeat' split
    · simp [viewUpdate, periods]; constructor
    · simp [viewUpdate, periods]; constructor
    · next h1 h2 =>
      simp [viewUpdate, periods]
      exact .newer _ _ (by
        rcases UInt64.lt_or_eq_of_le (UInt64.not_lt.mp h2) with h | h
        · exact h
        · exact absurd h.symm h1)
  all_goals
    simp only [stepTask, stepBootstrap, stepUpdate, stepFinality, stepOptimistic, stepSummaries]
    repeat' split
  all_goals
    simp [viewUpdate, periods, announce] <;> constructor

theorem step_final (H : Id → Id → Id) (w : World Peer) (s : Shared) (t : Task) :
    VStep (viewFinal t) s.finalSlot (viewFinal (stepTask H w s t).1) (stepTask H w s t).2.1.finalSlot
      (finalSlots (stepTask H w s t).2.2) := by
  cases t
  case finalCompare p =>
    simp only [stepTask, stepFinality]
    repeat' split
    · simp [viewFinal, finalSlots]; constructor
    · simp [viewFinal, finalSlots]; constructor
    · next h1 h2 =>
      simp [viewFinal, finalSlots, announce]
      exact .announceNewer _ _ (by
        rcases UInt64.lt_or_eq_of_le (UInt64.not_lt.mp h2) with h | h
        · exact h
        · exact absurd h.symm h1)
  all_goals
    simp only [stepTask, stepBootstrap, stepUpdate, stepFinality, stepOptimistic, stepSummaries]
    repeat' split
  all_goals
    simp [viewFinal, finalSlots, announce] <;> constructor

/-! ## Invariants of punctual schedules -/

def viewAt {α} (v : Task → α) (out : α) (tasks : List Task) (i : Nat) : α :=
  match tasks[i]? with
  | some t => v t
  | none => out

theorem viewAt_set {α} (v : Task → α) (out : α) (tasks : List Task) (i : Nat) (t t' : Task)
    (h : tasks[i]? = some t) :
    viewAt v out (tasks.set i t') = fun j => if j = i then v t' else viewAt v out tasks j := by
  funext j
  have hi : i < tasks.length := (List.getElem?_eq_some_iff.mp h).1
  simp only [viewAt, List.getElem?_set]
  by_cases hj : j = i
  · subst hj; simp [hi]
  · have : i ≠ j := fun h => hj h.symm
    simp [hj, this]

theorem viewAt_out {α} (v : Task → α) (out : α) (tasks : List Task) (i : Nat) (h : tasks.length ≤ i) :
    viewAt v out tasks i = out := by
  simp [viewAt, h]

/-- A tick adds one task of each kind. -/
theorem viewAt_tick {α} (v : Task → α) (out start : α) (tasks : List Task) (k : Nat) (hk : k < 5)
    (hv : ∀ i, i < 5 → v (spawned.getD i .finished) = if i = k then start else out) :
    viewAt v out (tasks ++ spawned) =
      fun j => if j = tasks.length + k then start else viewAt v out tasks j := by
  funext j
  by_cases hj : j < tasks.length
  · have : j ≠ tasks.length + k := by omega
    simp [viewAt, List.getElem?_append, hj, this]
  · rw [viewAt_out v out tasks j (by omega)]
    by_cases h5 : j - tasks.length < 5
    · have := hv _ h5
      simp only [viewAt, List.getElem?_append, hj, if_false]
      have hs : spawned[j - tasks.length]? = some (spawned.getD (j - tasks.length) .finished) := by
        have : j - tasks.length < spawned.length := h5
        simp [List.getD_eq_getElem?_getD, this]
      rw [hs]
      simp only [this]
      have : (j - tasks.length = k) ↔ j = tasks.length + k := by omega
      simp [this]
    · have h1 : j ≠ tasks.length + k := by omega
      have h2 : spawned.length ≤ j - tasks.length := by simp [spawned]; omega
      simp [viewAt, List.getElem?_append, hj, h1, h2]

theorem apply_run {H : Id → Id → Id} {b : Bridge Peer} {i : Nat} {w : World Peer} {t : Task}
    (h : b.tasks[i]? = some t) :
    apply H b (.run i w) = ⟨(stepTask H w b.shared t).2.1, b.tasks.set i (stepTask H w b.shared t).1,
      b.log ++ (stepTask H w b.shared t).2.2⟩ := by
  simp [apply, h]

theorem boot_inv (H : Id → Id → Id) (evs : List (Event Peer)) (h : InTime H askingBootstrap evs) :
    GInv true (viewAt viewBoot .out (exec H Bridge.start evs).tasks) (exec H Bridge.start evs).shared.bootBusy
      (exec H Bridge.start evs).shared.bootRoot (bootRoots (exec H Bridge.start evs).log) := by
  induction evs using snoc_induction with
  | h0 => exact GInv.init true
  | hs evs e ih =>
    have ih := ih (inTime_init h)
    rw [exec_snoc]
    have hin := h evs []
    generalize hb : exec H Bridge.start evs = b at ih hin
    cases e with
    | tick =>
      simp only [apply]
      rw [viewAt_tick viewBoot .out .check b.tasks 0 (by decide) (by
        intro i hi; match i, hi with | 0, _ | 1, _ | 2, _ | 3, _ | 4, _ => rfl)]
      refine ih.spawn _ (viewAt_out _ _ _ _ (by omega)) fun i => ?_
      simp only [viewAt]
      split
      · next t ht =>
        have := hin rfl t (List.mem_of_getElem? ht)
        revert this
        cases t <;> simp [askingBootstrap, viewBoot, G.asking]
      · simp [G.asking]
    | run i w =>
      cases ht : b.tasks[i]? with
      | none => simpa [apply, ht] using ih
      | some t =>
        rw [apply_run ht]
        simp only [viewAt_set viewBoot .out b.tasks i t _ ht, bootRoots, List.filterMap_append]
        refine ih.step i ?_
        have : viewAt viewBoot .out b.tasks i = viewBoot t := by simp [viewAt, ht]
        rw [this]
        exact step_boot H w b.shared t

theorem sum_inv (reset : Bool) (H : Id → Id → Id) (evs : List (Event Peer)) (h : InTime H askingSummaries evs)
    (hr : reset = true → NoStateFails H evs) :
    ∃ log, GInv reset (viewAt viewSum .out (exec H Bridge.start evs).tasks) (exec H Bridge.start evs).shared.stateBusy
      (exec H Bridge.start evs).shared.stateRoot log ∧ (Consistent H evs → log = provenRoots H (exec H Bridge.start evs).log) := by
  induction evs using snoc_induction with
  | h0 => exact ⟨[], GInv.init reset, fun _ => rfl⟩
  | hs evs e ih =>
    obtain ⟨log, ih, hlog⟩ := ih (inTime_init h) fun hre => noStateFails_init (hr hre)
    rw [exec_snoc]
    have hin := h evs []
    have hc' : Consistent H (evs ++ [e]) → _ := fun hc => hc evs
    have hr' := fun hre => hr hre evs
    generalize hb : exec H Bridge.start evs = b at ih hin hr' hlog hc'
    cases e with
    | tick =>
      refine ⟨log, ?_, fun hc => hlog (consistent_init hc)⟩
      simp only [apply]
      rw [viewAt_tick viewSum .out .check b.tasks 4 (by decide) (by
        intro i hi; match i, hi with | 0, _ | 1, _ | 2, _ | 3, _ | 4, _ => rfl)]
      refine ih.spawn _ (viewAt_out _ _ _ _ (by omega)) fun i => ?_
      simp only [viewAt]
      split
      · next t ht =>
        have := hin rfl t (List.mem_of_getElem? ht)
        revert this
        cases t <;> simp [askingSummaries, viewSum, G.asking]
      · simp [G.asking]
    | run i w =>
      cases ht : b.tasks[i]? with
      | none =>
        refine ⟨log, ?_, fun hc => ?_⟩
        · simpa [apply, ht] using ih
        · simpa [apply, ht] using hlog (consistent_init hc)
      | some t =>
        obtain ⟨out, h1, h2⟩ := step_sum reset H w b.shared t fun hre root hrt =>
          hr' hre i w [] root rfl (hrt ▸ ht)
        rw [apply_run ht]
        refine ⟨log ++ out, ?_, fun hc => ?_⟩
        · simp only [viewAt_set viewSum .out b.tasks i t _ ht]
          refine ih.step i ?_
          have : viewAt viewSum .out b.tasks i = viewSum t := by simp [viewAt, ht]
          rw [this]
          exact h1
        · rw [hlog (consistent_init hc), h2 fun root st hrt hst => hc' hc i w [] root st rfl (hrt ▸ ht) hst]
          simp [provenRoots]

theorem update_inv (H : Id → Id → Id) (evs : List (Event Peer)) (h : InTime H servingUpdate evs) :
    VInv (viewAt viewUpdate .out (exec H Bridge.start evs).tasks) (exec H Bridge.start evs).shared.period
      (periods (exec H Bridge.start evs).log) := by
  induction evs using snoc_induction with
  | h0 => exact VInv.init
  | hs evs e ih =>
    have ih := ih (inTime_init h)
    rw [exec_snoc]
    have hin := h evs []
    generalize hb : exec H Bridge.start evs = b at ih hin
    cases e with
    | tick =>
      simp only [apply]
      rw [viewAt_tick viewUpdate .out .start b.tasks 1 (by decide) (by
        intro i hi; match i, hi with | 0, _ | 1, _ | 2, _ | 3, _ | 4, _ => rfl)]
      refine ih.spawn _ (viewAt_out _ _ _ _ (by omega)) fun i => ?_
      simp only [viewAt]
      split
      · next t ht =>
        have := hin rfl t (List.mem_of_getElem? ht)
        revert this
        cases t <;> simp [servingUpdate, viewUpdate, V.live]
      · rfl
    | run i w =>
      cases ht : b.tasks[i]? with
      | none => simpa [apply, ht] using ih
      | some t =>
        rw [apply_run ht]
        simp only [viewAt_set viewUpdate .out b.tasks i t _ ht, periods, List.filterMap_append]
        refine ih.step i ?_
        have : viewAt viewUpdate .out b.tasks i = viewUpdate t := by simp [viewAt, ht]
        rw [this]
        exact step_update H w b.shared t

theorem final_inv (H : Id → Id → Id) (evs : List (Event Peer)) (h : InTime H servingFinality evs) :
    VInv (viewAt viewFinal .out (exec H Bridge.start evs).tasks) (exec H Bridge.start evs).shared.finalSlot
      (finalSlots (exec H Bridge.start evs).log) := by
  induction evs using snoc_induction with
  | h0 => exact VInv.init
  | hs evs e ih =>
    have ih := ih (inTime_init h)
    rw [exec_snoc]
    have hin := h evs []
    generalize hb : exec H Bridge.start evs = b at ih hin
    cases e with
    | tick =>
      simp only [apply]
      rw [viewAt_tick viewFinal .out .start b.tasks 2 (by decide) (by
        intro i hi; match i, hi with | 0, _ | 1, _ | 2, _ | 3, _ | 4, _ => rfl)]
      refine ih.spawn _ (viewAt_out _ _ _ _ (by omega)) fun i => ?_
      simp only [viewAt]
      split
      · next t ht =>
        have := hin rfl t (List.mem_of_getElem? ht)
        revert this
        cases t <;> simp [servingFinality, viewFinal, V.live]
      · rfl
    | run i w =>
      cases ht : b.tasks[i]? with
      | none => simpa [apply, ht] using ih
      | some t =>
        rw [apply_run ht]
        simp only [viewAt_set viewFinal .out b.tasks i t _ ht, finalSlots, List.filterMap_append]
        refine ih.step i ?_
        have : viewAt viewFinal .out b.tasks i = viewFinal t := by simp [viewAt, ht]
        rw [this]
        exact step_final H w b.shared t

/-! ## Where announcements come from -/

/-- What the position of a task says about the answers so far. -/
def Heard (ws : List (World Peer)) : Task → Prop
  | .bootCompare r | .bootMark r | .bootFetch r => ∃ w ∈ ws, w.finalizedBlock = some r
  | .updateCompare p | .updateFetch p => ∃ w ∈ ws, w.slot.toNat / 8192 = p.toNat
  | .finalCompare u => ∃ w ∈ ws, w.finality = some u
  | .sumCompare r | .sumMark r | .sumFetch r => ∃ w ∈ ws, w.finalizedState = some r
  | _ => True

theorem Heard.mono {ws : List (World Peer)} {w : World Peer} {t : Task} (h : Heard ws t) :
    Heard (ws ++ [w]) t := by
  cases t <;> simp only [Heard] at h ⊢ <;>
    (obtain ⟨w', h1, h2⟩ := h; exact ⟨w', by simp [h1], h2⟩)

/-- What one step may do. -/
def StepOk (H : Id → Id → Id) (ws : List (World Peer)) (w : World Peer)
    (r : Task × Shared × List (Announcement Peer)) : Prop :=
  Heard (ws ++ [w]) r.1 ∧
  ∀ a ∈ r.2.2, Genuine H (ws ++ [w]) a.key a.value ∧ a.peers = (w.peers a.key).getD []

theorem StepOk.quiet {H : Id → Id → Id} {ws : List (World Peer)} {w : World Peer} {t : Task} {s : Shared}
    (h : Heard (ws ++ [w]) t) : StepOk H ws w (t, s, []) := ⟨h, fun _ h => absurd h List.not_mem_nil⟩

theorem StepOk.one {H : Id → Id → Id} {ws : List (World Peer)} {w : World Peer} {t : Task} {s : Shared}
    {k : ContentKey.Beacon} {v : Value} (h : Heard (ws ++ [w]) t) (hg : Genuine H (ws ++ [w]) k v) :
    StepOk H ws w (t, s, [announce w k v]) :=
  ⟨h, fun a ha => by rw [List.mem_singleton.mp ha]; exact ⟨hg, rfl⟩⟩

theorem heard_boot (H : Id → Id → Id) (ws : List (World Peer)) (w : World Peer) (s : Shared) (t : Task)
    (h : Heard ws t) : StepOk H ws w (stepBootstrap w s t) := by
  have hm := h.mono (w := w)
  have hw : w ∈ ws ++ [w] := by simp
  cases t
  case bootAsk =>
    simp only [stepBootstrap]
    split
    · exact .quiet trivial
    · next r hr => exact .quiet ⟨w, hw, hr⟩
  case bootFetch r =>
    simp only [stepBootstrap]
    split
    · exact .quiet trivial
    · next b hb => exact .one trivial ⟨hm, w, hw, b, hb, rfl⟩
  all_goals
    simp only [stepBootstrap]
    first
      | (split <;> first | exact .quiet trivial | exact .quiet hm)
      | exact .quiet trivial
      | exact .quiet hm

theorem heard_update (H : Id → Id → Id) (ws : List (World Peer)) (w : World Peer) (s : Shared) (t : Task)
    (h : Heard ws t) : StepOk H ws w (stepUpdate w s t) := by
  have hm := h.mono (w := w)
  have hw : w ∈ ws ++ [w] := by simp
  cases t
  case updateClock =>
    refine .quiet ⟨w, hw, ?_⟩
    simp [slotsPerPeriod, UInt64.toNat_div]
  case updateCompare p =>
    simp only [stepUpdate]
    repeat' split
    · exact .quiet trivial
    · exact .quiet trivial
    · exact .quiet hm
  case updateFetch p =>
    simp only [stepUpdate]
    repeat' split
    · exact .quiet trivial
    · exact .quiet trivial
    · exact .quiet trivial
    · next u rest hu hp =>
      refine .one trivial ⟨rfl, hm, w, hw, u, rest, _, hu, ?_, rfl⟩
      rw [← Classical.not_not.mp hp]
      simp [slotsPerPeriod, UInt64.toNat_div]
  all_goals
    simp only [stepUpdate]
    first
      | exact .quiet trivial
      | exact .quiet hm

theorem heard_final (H : Id → Id → Id) (ws : List (World Peer)) (w : World Peer) (s : Shared) (t : Task)
    (h : Heard ws t) : StepOk H ws w (stepFinality w s t) := by
  have hm := h.mono (w := w)
  have hw : w ∈ ws ++ [w] := by simp
  cases t
  case finalFetch =>
    simp only [stepFinality]
    split
    · exact .quiet trivial
    · next u hu => exact .quiet ⟨w, hw, hu⟩
  case finalCompare u =>
    simp only [stepFinality]
    repeat' split
    · exact .quiet trivial
    · exact .quiet trivial
    · obtain ⟨w', h1, h2⟩ := hm
      exact .one trivial ⟨w', h1, u, h2, rfl, rfl⟩
  all_goals
    simp only [stepFinality]
    first
      | exact .quiet trivial
      | exact .quiet hm

theorem heard_optimistic (H : Id → Id → Id) (ws : List (World Peer)) (w : World Peer) (s : Shared) (t : Task)
    (h : Heard ws t) : StepOk H ws w (stepOptimistic w s t) := by
  have hm := h.mono (w := w)
  have hw : w ∈ ws ++ [w] := by simp
  cases t
  case optimisticFetch =>
    simp only [stepOptimistic]
    split
    · exact .quiet trivial
    · next u hu => exact .one trivial ⟨w, hw, u, hu, rfl, rfl⟩
  all_goals
    simp only [stepOptimistic]
    first
      | exact .quiet trivial
      | exact .quiet hm

theorem heard_summaries (H : Id → Id → Id) (ws : List (World Peer)) (w : World Peer) (s : Shared) (t : Task)
    (h : Heard ws t) : StepOk H ws w (stepSummaries H w s t) := by
  have hm := h.mono (w := w)
  have hw : w ∈ ws ++ [w] := by simp
  cases t
  case sumAsk =>
    simp only [stepSummaries]
    split
    · exact .quiet trivial
    · next r hr => exact .quiet ⟨w, hw, hr⟩
  case sumFetch r =>
    simp only [stepSummaries]
    split
    · exact .quiet trivial
    · next st hst =>
      obtain ⟨p, hp, he⟩ := summariesProof_some H st
      simp only [hp]
      obtain ⟨w', h1, h2⟩ := hm
      have hd : st.slot.toNat / 32 = (st.slot / slotsPerEpoch).toNat := by
        simp [slotsPerEpoch, UInt64.toNat_div]
      exact .one trivial ⟨⟨w', h1, r, h2⟩, w, hw, st, p, hst, hd, rfl, he⟩
  all_goals
    simp only [stepSummaries]
    first
      | (split <;> first | exact .quiet trivial | exact .quiet hm)
      | exact .quiet trivial
      | exact .quiet hm

theorem heard_step (H : Id → Id → Id) (ws : List (World Peer)) (w : World Peer) (s : Shared) (t : Task)
    (h : Heard ws t) : StepOk H ws w (stepTask H w s t) := by
  unfold stepTask
  split
  all_goals first
    | exact heard_boot H ws w s _ h
    | exact heard_update H ws w s _ h
    | exact heard_final H ws w s _ h
    | exact heard_optimistic H ws w s _ h
    | exact heard_summaries H ws w s _ h
    | exact .quiet trivial

theorem genuine_mono {H : Id → Id → Id} {ws : List (World Peer)} {w : World Peer} {k : ContentKey.Beacon}
    {v : Value} (h : Genuine H ws k v) : Genuine H (ws ++ [w]) k v := by
  have hm : ∀ {w'}, w' ∈ ws → w' ∈ ws ++ [w] := fun h => List.mem_append_left _ h
  cases k with
  | bootstrap r =>
    obtain ⟨⟨a, h1, h2⟩, b, h3, h4⟩ := h
    exact ⟨⟨a, hm h1, h2⟩, b, hm h3, h4⟩
  | updatesByRange p c =>
    obtain ⟨h0, ⟨a, h1, h2⟩, b, h3, h4⟩ := h
    exact ⟨h0, ⟨a, hm h1, h2⟩, b, hm h3, h4⟩
  | finalityUpdate s =>
    obtain ⟨b, h3, h4⟩ := h
    exact ⟨b, hm h3, h4⟩
  | optimisticUpdate s =>
    obtain ⟨b, h3, h4⟩ := h
    exact ⟨b, hm h3, h4⟩
  | historicalSummaries e =>
    obtain ⟨⟨a, h1, h2⟩, b, h3, h4⟩ := h
    exact ⟨⟨a, hm h1, h2⟩, b, hm h3, h4⟩

theorem heard_inv (H : Id → Id → Id) (evs : List (Event Peer)) :
    (∀ t ∈ (exec H Bridge.start evs).tasks, Heard (answers evs) t) ∧
    ∀ a ∈ (exec H Bridge.start evs).log, Genuine H (answers evs) a.key a.value ∧
      ∃ w ∈ answers evs, a.peers = (w.peers a.key).getD [] := by
  induction evs using snoc_induction with
  | h0 => exact ⟨nofun, nofun⟩
  | hs evs e ih =>
    rw [exec_snoc]
    generalize exec H Bridge.start evs = b at ih
    cases e with
    | tick =>
      have : answers (evs ++ [Event.tick]) = answers (Peer := Peer) evs := by simp [answers]
      rw [this]
      refine ⟨fun t ht => ?_, ih.2⟩
      rcases List.mem_append.mp ht with h | h
      · exact ih.1 t h
      · simp only [spawned, List.mem_cons, List.not_mem_nil, or_false] at h
        rcases h with h | h | h | h | h <;> subst h <;> trivial
    | run i w =>
      have ha : answers (evs ++ [Event.run i w]) = answers evs ++ [w] := by simp [answers]
      rw [ha]
      have hlog : ∀ a ∈ b.log, Genuine H (answers evs ++ [w]) a.key a.value ∧
          ∃ w' ∈ answers evs ++ [w], a.peers = (w'.peers a.key).getD [] := by
        intro a h
        obtain ⟨h1, w', h2, h3⟩ := ih.2 a h
        exact ⟨genuine_mono h1, w', List.mem_append_left _ h2, h3⟩
      cases ht : b.tasks[i]? with
      | none =>
        have : apply H b (.run i w) = b := by simp [apply, ht]
        rw [this]
        exact ⟨fun t h => (ih.1 t h).mono, hlog⟩
      | some t =>
        rw [apply_run ht]
        obtain ⟨h1, h2⟩ := heard_step H (answers evs) w b.shared t (ih.1 t (List.mem_of_getElem? ht))
        refine ⟨fun t' h => ?_, fun a h => ?_⟩
        · rcases List.mem_or_eq_of_mem_set h with h | h
          · exact (ih.1 t' h).mono
          · exact h ▸ h1
        · rcases List.mem_append.mp h with h | h
          · exact hlog a h
          · obtain ⟨h3, h4⟩ := h2 a h
            exact ⟨h3, w, by simp, h4⟩

/-! ## One task on its own -/

/-- `k` steps of a task that nothing interrupts. -/
def alone (H : Id → Id → Id) (w : World Peer) : Nat → Shared → Task → Task × Shared × List (Announcement Peer)
  | 0, s, t => (t, s, [])
  | k + 1, s, t =>
    let r := stepTask H w s t
    let q := alone H w k r.2.1 r.1
    (q.1, q.2.1, r.2.2 ++ q.2.2)

theorem exec_alone (H : Id → Id → Id) (w : World Peer) (k : Nat) : ∀ (b : Bridge Peer) (i : Nat) (t : Task),
    b.tasks[i]? = some t →
    exec H b (List.replicate k (.run i w)) =
      ⟨(alone H w k b.shared t).2.1, b.tasks.set i (alone H w k b.shared t).1,
        b.log ++ (alone H w k b.shared t).2.2⟩ := by
  induction k with
  | zero =>
    intro b i t h
    have hi := List.getElem?_eq_some_iff.mp h
    obtain ⟨hlt, he⟩ := hi
    have : b.tasks.set i t = b.tasks := by
      apply List.ext_getElem? ; intro j
      rw [List.getElem?_set]
      split
      · next hj => subst hj; simp [hlt, he]
      · rfl
    simp [exec, alone, this]
  | succ k ih =>
    intro b i t h
    have hi : i < b.tasks.length := (List.getElem?_eq_some_iff.mp h).1
    show exec H (apply H b (.run i w)) (List.replicate k (.run i w)) = _
    rw [apply_run h, ih _ i (stepTask H w b.shared t).1 (by simp [hi])]
    simp [alone]

/-- The task that a tick spawned at place `k`, run alone. -/
theorem exec_tick_alone (H : Id → Id → Id) (w : World Peer) (b : Bridge Peer) (k n : Nat) (t : Task)
    (hk : spawned[k]? = some t) :
    (exec H b (.tick :: List.replicate n (.run (b.tasks.length + k) w))).log =
      b.log ++ (alone H w n b.shared t).2.2 := by
  show (exec H (apply H b .tick) (List.replicate n (.run (b.tasks.length + k) w))).log = _
  rw [exec_alone H w n (apply H b .tick) (b.tasks.length + k) t (by simp [apply, List.getElem?_append, hk])]
  rfl

/-! ## The flag that is never cleared -/

theorem stuck_step (H : Id → Id → Id) (w : World Peer) (s : Shared) (t : Task) (hb : s.stateBusy = true)
    (ht : servingSummaries t = true → t = .sumCheck) :
    (stepTask H w s t).2.1.stateBusy = true ∧
    (servingSummaries (stepTask H w s t).1 = true → (stepTask H w s t).1 = .sumCheck) ∧
    epochs (stepTask H w s t).2.2 = [] := by
  cases t
  all_goals first
    | (have := ht rfl; cases this; done)
    | skip
  all_goals
    simp only [stepTask, stepBootstrap, stepUpdate, stepFinality, stepOptimistic, stepSummaries, hb, if_true]
    repeat' split
  all_goals simp [servingSummaries, epochs, announce, hb]

theorem stuck (H : Id → Id → Id) (evs : List (Event Peer)) : ∀ b : Bridge Peer, b.shared.stateBusy = true →
    (∀ t ∈ b.tasks, servingSummaries t = true → t = .sumCheck) →
    epochs (exec H b evs).log = epochs b.log := by
  induction evs with
  | nil => intro b _ _; rfl
  | cons e evs ih =>
    intro b hb ht
    show epochs (exec H (apply H b e) evs).log = _
    cases e with
    | tick =>
      refine ih _ hb fun t h => ?_
      rcases List.mem_append.mp h with h | h
      · exact ht t h
      · simp only [spawned, List.mem_cons, List.not_mem_nil, or_false] at h
        rcases h with h | h | h | h | h <;> subst h <;> simp [servingSummaries]
    | run i w =>
      cases hi : b.tasks[i]? with
      | none =>
        have : apply H b (.run i w) = b := by simp [apply, hi]
        rw [this]
        exact ih b hb ht
      | some t =>
        obtain ⟨h1, h2, h3⟩ := stuck_step H w b.shared t hb (ht t (List.mem_of_getElem? hi))
        rw [apply_run hi, ih _ h1 fun t' h => ?_]
        · simp only [epochs, List.filterMap_append] at h3 ⊢
          rw [h3, List.append_nil]
        · rcases List.mem_or_eq_of_mem_set h with h | h
          · exact ht t' h
          · subst h; exact h2

end Verif.BeaconBridge
