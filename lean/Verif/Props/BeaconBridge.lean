import Verif.Lemmas.BeaconBridge
import Verif.Props.BeaconValidator

/-! # C77: what the beacon bridge announces, and how often -/

namespace Verif.Props
open Verif.BeaconValue Verif.SszT Verif.Merkle Verif.BeaconBridge
open Verif.BeaconValidator (validate summariesRoot)
open Verif.LightClient (Env)
open BeaconFeed

variable {Peer : Type}

/-! ## What is announced -/

/-- Along every schedule, whatever is announced comes from the answers of the consensus client, under a key that
says what it is, and goes to the peers that the census selects for that key. -/
theorem C77_genuine (H : Id → Id → Id) (evs : List (Event Peer)) (a : Announcement Peer)
    (ha : a ∈ (exec H Bridge.start evs).log) :
    Genuine H (answers evs) a.key a.value ∧ ∃ w ∈ answers evs, a.peers = (w.peers a.key).getD [] :=
  (heard_inv H evs).2 a ha

/-- A peer accepts an announcement exactly if its own light client, where it has one, agrees with the consensus
client of the bridge. -/
theorem C77_accepted (env : Env) (net : BeaconValidator.Net) (now : Nat) (oracle : BeaconValidator.Oracle)
    (hnow : 864000 ≤ now) (evs : List (Event Peer)) (a : Announcement Peer) (ha : a ∈ (exec env.H Bridge.start evs).log) :
    validate env net now oracle a.key a.value.encode = .valid ↔ Agrees env net now oracle a.value := by
  have hg := (C77_genuine env.H evs a ha).1
  obtain ⟨key, value, peers⟩ := a
  simp only at hg ⊢
  have hu : ∀ v, BeaconFormat.Belongs key v → BeaconFormat.Belongs key value →
      value.encode = BeaconFormat.value v → value = v := by
    intro v h1 h2 h
    rw [← C54_format] at h
    have e1 := C54_roundtrip key value h2
    rw [h, C54_roundtrip key v h1] at e1
    cases e1
    rfl
  have key_iff : BeaconFormat.Belongs key value →
      (validate env net now oracle key value.encode = .valid ↔
        BeaconRules.Acceptable env net now oracle key value) := by
    intro hb
    rw [C55_accepts env net now oracle key _ hnow]
    constructor
    · rintro ⟨v, h1, h2, h3⟩
      rw [hu v h1 hb h2]
      exact h3
    · intro h
      exact ⟨value, hb, C54_format value, h⟩
  cases key with
  | bootstrap r =>
    obtain ⟨_, w, _, b, _, rfl⟩ := hg
    exact key_iff trivial
  | updatesByRange p c =>
    obtain ⟨rfl, _, w, _, u, rest, h, _, _, rfl⟩ := hg
    rw [key_iff trivial]
    exact ⟨fun h => h.2, fun h => ⟨rfl, h⟩⟩
  | finalityUpdate s =>
    obtain ⟨w, _, u, _, rfl, rfl⟩ := hg
    rw [key_iff trivial]
    constructor
    · rintro ⟨u', h1, _, h3⟩ s hs
      exact ⟨u', h1, h3 s hs⟩
    · intro h
      refine ⟨u, rfl, UInt64.le_refl _, fun s hs => ?_⟩
      obtain ⟨u', h1, h2⟩ := h s hs
      cases h1
      exact h2
  | optimisticUpdate s =>
    obtain ⟨w, _, u, _, rfl, rfl⟩ := hg
    rw [key_iff trivial]
    constructor
    · rintro ⟨u', h1, _, h3⟩ s hs
      exact ⟨u', h1, h3 s hs⟩
    · intro h
      refine ⟨u, rfl, rfl, fun s hs => ?_⟩
      obtain ⟨u', h1, h2⟩ := h s hs
      cases h1
      exact h2
  | historicalSummaries e =>
    obtain ⟨_, w, _, st, p, _, _, rfl, _⟩ := hg
    rw [key_iff trivial]
    have hl := p.2
    simp only [BeaconRules.Acceptable, Agrees, verifyMerkleProof, hl, if_true, beq_iff_eq, true_and]

/-- The proof of the summaries leads to the root of the state they are taken from, so peers that know this state
as finalized accept them. -/
theorem C77_summaries_accepted (env : Env) (net : BeaconValidator.Net) (now : Nat)
    (oracle : BeaconValidator.Oracle) (hnow : 864000 ≤ now) (evs : List (Event Peer)) (a : Announcement Peer)
    (ha : a ∈ (exec env.H Bridge.start evs).log) (epoch : UInt64) (hk : a.key = .historicalSummaries epoch) :
    ∃ w ∈ answers evs, ∃ st, w.state = some st ∧ st.slot.toNat / 32 = epoch.toNat ∧
      (oracle.stateRoot = some (stateRootOf env.H st) →
        validate env net now oracle a.key a.value.encode = .valid) := by
  have hg := (C77_genuine env.H evs a ha).1
  rw [hk] at hg
  obtain ⟨_, w, hw, st, p, h1, h2, h3, h4⟩ := hg
  refine ⟨w, hw, st, h1, h2, fun ho => ?_⟩
  rw [C77_accepted env net now oracle hnow evs a ha, h3]
  intro root hr
  rw [ho] at hr
  cases hr
  exact h4

/-! ## How often -/

/-- If each request for updates is answered before the next tick, no period is announced twice, and periods are
announced in order. Missing: this fails when tasks overlap, see `C77_overlap_violated`. -/
theorem C77_updates_partial (H : Id → Id → Id) (evs : List (Event Peer)) (h : InTime H servingUpdate evs) :
    (periods (exec H Bridge.start evs).log).Pairwise (· < ·) := (update_inv H evs h).sorted

/-- Likewise finality updates, by their finalized slot. -/
theorem C77_finality_partial (H : Id → Id → Id) (evs : List (Event Peer)) (h : InTime H servingFinality evs) :
    (finalSlots (exec H Bridge.start evs).log).Pairwise (· < ·) := (final_inv H evs h).sorted

/-- If each request for the finalized root is answered before the next tick, no bootstrap is announced twice in a
row, and no two tasks download at the same time, however long the downloads take. -/
theorem C77_bootstrap_partial (H : Id → Id → Id) (evs : List (Event Peer)) (h : InTime H askingBootstrap evs) :
    NoRepeat (bootRoots (exec H Bridge.start evs).log) ∧
    ∀ (i j : Nat) (r r' : Id), (exec H Bridge.start evs).tasks[i]? = some (.bootFetch r) → (exec H Bridge.start evs).tasks[j]? = some (.bootFetch r') →
      i = j := by
  have inv := boot_inv H evs h
  refine ⟨inv.chain, fun i j r r' hi hj => inv.past_unique i j ?_ ?_⟩
  · simp [viewAt, hi, viewBoot, G.past]
  · simp [viewAt, hj, viewBoot, G.past]

/-- Likewise summaries, by the root of the state they are taken from, if the consensus client sends the state
whose root it reported. -/
theorem C77_summaries_partial (H : Id → Id → Id) (evs : List (Event Peer)) (h : InTime H askingSummaries evs) :
    (Consistent H evs → NoRepeat (provenRoots H (exec H Bridge.start evs).log)) ∧
    ∀ (i j : Nat) (r r' : Id), (exec H Bridge.start evs).tasks[i]? = some (.sumFetch r) → (exec H Bridge.start evs).tasks[j]? = some (.sumFetch r') →
      i = j := by
  obtain ⟨log, inv, hl⟩ := sum_inv false H evs h nofun
  refine ⟨fun hc => hl hc ▸ inv.chain, fun i j r r' hi hj => inv.past_unique i j ?_ ?_⟩
  · simp [viewAt, hi, viewSum, G.past]
  · simp [viewAt, hj, viewSum, G.past]

/-! ## New data is announced -/

/-- Tasks of a kind that are all over. -/
theorem no_store {tasks : List Task} {α} {v : Task → α} {out : α} (h : ∀ t ∈ tasks, v t = out) :
    ∀ i, viewAt v out tasks i = out := by
  intro i
  unfold viewAt
  split
  · next t ht => exact h t (List.mem_of_getElem? ht)
  · rfl

/-- The update of the current period, when its finalized header is in the period and the period is newer than
the last one announced, is announced by the task of the next tick. -/
theorem C77_update_served (H : Id → Id → Id) (evs : List (Event Peer)) (h : InTime H servingUpdate evs)
    (hd : ∀ t ∈ (exec H Bridge.start evs).tasks, servingUpdate t = false) (w : World Peer) (u : Update .electra) (rest)
    (hnew : (periods (exec H Bridge.start evs).log).getLast?.getD 0 < w.slot / 8192)
    (hu : w.updates (w.slot / 8192) 1 = some (u :: rest)) (hp : u.finalized.beacon.slot / 8192 = w.slot / 8192) :
    (exec H (exec H Bridge.start evs) (.tick :: List.replicate 4 (.run ((exec H Bridge.start evs).tasks.length + 1) w))).log =
      (exec H Bridge.start evs).log ++ [⟨.updatesByRange (w.slot / 8192) 1, .updates ⟨[⟨.electra, u⟩], Nat.le_of_ble_eq_true rfl⟩,
        (w.peers (.updatesByRange (w.slot / 8192) 1)).getD []⟩] := by
  have inv := update_inv H evs h
  have ho := no_store (v := viewUpdate) (out := .out) fun t ht => by
    have := hd t ht
    revert this
    cases t <;> simp [servingUpdate, viewUpdate]
  have hs := (inv.stored fun i p => by rw [ho i]; nofun).1
  rw [exec_tick_alone H w _ 1 4 .updateClock rfl]
  rw [← hs] at hnew
  have h1 : w.slot / 8192 ≠ (exec H Bridge.start evs).shared.period := fun h => by
    rw [h] at hnew; exact UInt64.lt_irrefl _ hnew
  have h2 : ¬ w.slot / 8192 < (exec H Bridge.start evs).shared.period := fun h => UInt64.lt_asymm h hnew
  simp [alone, stepTask, stepUpdate, slotsPerPeriod, h1, h2, hu, hp, announce]

/-- So is the finality update whose finalized slot is newer than the last one announced. -/
theorem C77_finality_served (H : Id → Id → Id) (evs : List (Event Peer)) (h : InTime H servingFinality evs)
    (hd : ∀ t ∈ (exec H Bridge.start evs).tasks, servingFinality t = false) (w : World Peer) (u : FinalityUpdate .electra)
    (hu : w.finality = some u)
    (hnew : (finalSlots (exec H Bridge.start evs).log).getLast?.getD 0 < u.finalized.beacon.slot) :
    (exec H (exec H Bridge.start evs) (.tick :: List.replicate 3 (.run ((exec H Bridge.start evs).tasks.length + 2) w))).log =
      (exec H Bridge.start evs).log ++ [⟨.finalityUpdate u.finalized.beacon.slot, .finality ⟨.electra, u⟩,
        (w.peers (.finalityUpdate u.finalized.beacon.slot)).getD []⟩] := by
  have inv := final_inv H evs h
  have ho := no_store (v := viewFinal) (out := .out) fun t ht => by
    have := hd t ht
    revert this
    cases t <;> simp [servingFinality, viewFinal]
  have hs := (inv.stored fun i p => by rw [ho i]; nofun).1
  rw [exec_tick_alone H w _ 2 3 .finalFetch rfl]
  rw [← hs] at hnew
  have h1 : u.finalized.beacon.slot ≠ (exec H Bridge.start evs).shared.finalSlot := fun h => by
    rw [h] at hnew; exact UInt64.lt_irrefl _ hnew
  have h2 : ¬ u.finalized.beacon.slot < (exec H Bridge.start evs).shared.finalSlot := fun h => UInt64.lt_asymm h hnew
  simp [alone, stepTask, stepFinality, h1, h2, hu, announce]

/-- The optimistic update is announced at every tick, new or not. -/
theorem C77_optimistic_served (H : Id → Id → Id) (b : Bridge Peer) (w : World Peer) (u : OptimisticUpdate .electra)
    (hu : w.optimistic = some u) :
    (exec H b (.tick :: List.replicate 1 (.run (b.tasks.length + 3) w))).log =
      b.log ++ [⟨.optimisticUpdate u.signatureSlot, .optimistic ⟨.electra, u⟩,
        (w.peers (.optimisticUpdate u.signatureSlot)).getD []⟩] := by
  rw [exec_tick_alone H w b 3 1 .optimisticFetch rfl]
  simp [alone, stepTask, stepOptimistic, hu, announce]

/-- The bootstrap of a root other than the last one announced is announced, also after earlier attempts failed. -/
theorem C77_bootstrap_served (H : Id → Id → Id) (evs : List (Event Peer)) (h : InTime H askingBootstrap evs)
    (hd : ∀ t ∈ (exec H Bridge.start evs).tasks, servingBootstrap t = false) (w : World Peer) (root : Id)
    (b : Bootstrap .electra) (hr : w.finalizedBlock = some root)
    (hnew : root ≠ (bootRoots (exec H Bridge.start evs).log).getLast?.getD 0) (hb : w.bootstrap root = some b) :
    (exec H (exec H Bridge.start evs) (.tick :: List.replicate 7 (.run ((exec H Bridge.start evs).tasks.length + 0) w))).log =
      (exec H Bridge.start evs).log ++ [⟨.bootstrap root, .bootstrap ⟨.electra, b⟩,
        (w.peers (.bootstrap root)).getD []⟩] := by
  have inv := boot_inv H evs h
  have ho := no_store (v := viewBoot) (out := .out) fun t ht => by
    have := hd t ht
    revert this
    cases t <;> simp [servingBootstrap, viewBoot]
  have hs := inv.stored fun i p => by rw [ho i]; nofun
  have hbusy : (exec H Bridge.start evs).shared.bootBusy = false := by
    cases hb : (exec H Bridge.start evs).shared.bootBusy with
    | false => rfl
    | true =>
      obtain ⟨i, hi⟩ := inv.held rfl hb
      rw [ho i] at hi
      cases hi
  rw [exec_tick_alone H w _ 0 7 .bootCheck rfl]
  rw [← hs] at hnew
  simp [alone, stepTask, stepBootstrap, hbusy, hr, hnew, hb, announce]

/-- The summaries of a finalized state other than the last one are announced, as long as no request for a state
has failed. Missing: after one failure they are not, see `C77_summaries_stuck_violated`. -/
theorem C77_summaries_served_partial (H : Id → Id → Id) (evs : List (Event Peer))
    (h : InTime H askingSummaries evs) (hc : Consistent H evs) (hf : NoStateFails H evs)
    (hd : ∀ t ∈ (exec H Bridge.start evs).tasks, servingSummaries t = false) (w : World Peer) (root : Id) (st : BeaconState)
    (hr : w.finalizedState = some root) (hnew : root ≠ (provenRoots H (exec H Bridge.start evs).log).getLast?.getD 0)
    (hst : w.state = some st) :
    ∃ proof, (exec H (exec H Bridge.start evs) (.tick :: List.replicate 7 (.run ((exec H Bridge.start evs).tasks.length + 4) w))).log =
      (exec H Bridge.start evs).log ++ [⟨.historicalSummaries (st.slot / 32),
        .summaries .electra ⟨st.slot / 32, st.summaries, proof⟩,
        (w.peers (.historicalSummaries (st.slot / 32))).getD []⟩] := by
  obtain ⟨log, inv, hl⟩ := sum_inv true H evs h fun _ => hf
  have hl := hl hc
  have ho := no_store (v := viewSum) (out := .out) fun t ht => by
    have := hd t ht
    revert this
    cases t <;> simp [servingSummaries, viewSum]
  have hs := inv.stored fun i p => by rw [ho i]; nofun
  have hbusy : (exec H Bridge.start evs).shared.stateBusy = false := by
    cases hb : (exec H Bridge.start evs).shared.stateBusy with
    | false => rfl
    | true =>
      obtain ⟨i, hi⟩ := inv.held rfl hb
      rw [ho i] at hi
      cases hi
  obtain ⟨p, hp, _⟩ := summariesProof_some H st
  refine ⟨p, ?_⟩
  rw [exec_tick_alone H w _ 4 7 .sumCheck rfl]
  rw [← hl, ← hs] at hnew
  simp [alone, stepTask, stepSummaries, hbusy, hr, hnew, hst, hp, announce, slotsPerEpoch]

/-! ## What goes wrong -/

/-- After one failed request for a state, no summaries are ever announced again: not in any continuation, whatever
the consensus client answers. -/
theorem C77_summaries_stuck_violated (H : Id → Id → Id) (evs : List (Event Peer)) (i : Nat) (root : Id)
    (w : World Peer) (h : InTime H askingSummaries evs)
    (hi : (exec H Bridge.start evs).tasks[i]? = some (.sumFetch root)) (hw : w.state = none) (later : List (Event Peer)) :
    epochs (exec H Bridge.start (evs ++ .run i w :: later)).log = epochs (exec H Bridge.start evs).log := by
  obtain ⟨log, inv, _⟩ := sum_inv false H evs h nofun
  rw [exec_append]
  show epochs (exec H (apply H (exec H Bridge.start evs) (.run i w)) later).log = _
  have hs : stepTask H w (exec H Bridge.start evs).shared (.sumFetch root) =
      (.finished, (exec H Bridge.start evs).shared, []) := by simp [stepTask, stepSummaries, hw]
  rw [apply_run hi, hs]
  have hb : (exec H Bridge.start evs).shared.stateBusy = true :=
    inv.late_busy i (by simp [viewAt, hi, viewSum, G.late])
  show epochs (exec H ⟨(exec H Bridge.start evs).shared, (exec H Bridge.start evs).tasks.set i .finished,
    (exec H Bridge.start evs).log ++ []⟩ later).log = _
  rw [List.append_nil]
  refine stuck H later ⟨_, _, _⟩ hb fun t ht hst => ?_
  · obtain ⟨j, hj⟩ := List.getElem?_of_mem ht
    rw [List.getElem?_set] at hj
    split at hj
    · split at hj
      · cases hj; cases hst
      · cases hj
    · next hne =>
      have h1 := inv.past_unique i j (by simp [viewAt, hi, viewSum, G.past])
      simp only [viewAt, hj] at h1
      revert h1 hst
      cases t <;> simp [servingSummaries, viewSum, G.past, hne]

/-! ## Concrete cases -/

namespace BeaconBridgeExample
open BeaconValidatorExample
open Verif.HeaderValidator (leNode)

/-- A hash that is cheap to compute: the left argument. -/
def L (a _ : Id) : Id := a
def committee : SyncCommittee :=
  ⟨⟨List.replicate 512 ⟨List.replicate 48 1, List.length_replicate⟩, List.length_replicate⟩,
    ⟨List.replicate 48 1, List.length_replicate⟩⟩
def hash6 : Vec Id 6 := ⟨List.replicate 6 0, List.length_replicate⟩
def hash7 : Vec Id 7 := ⟨List.replicate 7 0, List.length_replicate⟩
/-- An update of period 122. -/
def update : Update .electra := ⟨⟨att, exec⟩, committee, hash6, ⟨fin, exec⟩, hash7, agg, 1000065⟩
def boot : Bootstrap .electra := ⟨⟨fin, exec⟩, committee, hash6⟩
def final (slot : UInt64) : FinalityUpdate .electra := { finality with finalized := ⟨{ fin with slot := slot }, exec⟩ }
def state (slot : UInt64) : BeaconState where
  first := ⟨[leNode slot.toNat, 2], rfl⟩
  slot := slot
  middle := ⟨List.replicate 24 3, List.length_replicate⟩
  summaries := ⟨[⟨4, 5⟩, ⟨6, 7⟩], Nat.le_of_ble_eq_true rfl⟩
  last := ⟨List.replicate 9 8, List.length_replicate⟩
/-- A consensus client that answers everything; one peer. -/
def world : World String where
  slot := 1000070
  finalizedBlock := some 77
  bootstrap := fun _ => some boot
  updates := fun _ _ => some [update]
  finality := some (final 1000000)
  optimistic := some optimistic
  finalizedState := some (stateRootOf L (state 1000000))
  state := some (state 1000000)
  peers := fun _ => some ["peer"]

/-- All five tasks run to their end after a tick, `n` ticks before. -/
def round (n : Nat) (w : World String) : List (Event String) :=
  .tick :: (List.range 5).flatMap fun k => List.replicate 8 (.run (5 * n + k) w)

/-- One round, and a second one in which a new state, root, and finalized slot are known. -/
def two : List (Event String) :=
  round 0 world ++ round 1 { world with
    finalizedBlock := some 78, finality := some (final 1000032),
    finalizedState := some (stateRootOf L (state 1000032)), state := some (state 1000032) }

example : bootRoots (BeaconBridge.exec L Bridge.start two).log = [77, 78] := by decide +kernel
example : periods (BeaconBridge.exec L Bridge.start two).log = [122] := by decide +kernel
example : finalSlots (BeaconBridge.exec L Bridge.start two).log = [1000000, 1000032] := by decide +kernel
example : epochs (BeaconBridge.exec L Bridge.start two).log = [31250, 31251] := by decide +kernel
example : InTime L askingBootstrap two ∧ InTime L servingUpdate two ∧ InTime L servingFinality two ∧
    InTime L askingSummaries two :=
  ⟨inTime_of (by decide +kernel), inTime_of (by decide +kernel), inTime_of (by decide +kernel),
    inTime_of (by decide +kernel)⟩
example : Consistent L two ∧ NoStateFails L two := fetches_of (by decide +kernel)
/-- All tasks have ended, so the next round is served. -/
example : ∀ t ∈ (BeaconBridge.exec L Bridge.start two).tasks,
    servingBootstrap t = false ∧ servingUpdate t = false ∧ servingFinality t = false ∧ servingSummaries t = false := by
  have : (BeaconBridge.exec L Bridge.start two).tasks.all (fun t => !servingBootstrap t && !servingUpdate t &&
      !servingFinality t && !servingSummaries t) = true := by decide +kernel
  intro t ht
  have := List.all_eq_true.mp this t ht
  simpa [and_assoc] using this

/-- The schedule of a failed download: check, ask, compare, mark; then the state is not sent. -/
def begun : List (Event String) := .tick :: List.replicate 4 (.run 4 world)
example : InTime L askingSummaries begun := inTime_of (by decide +kernel)
example : (BeaconBridge.exec L Bridge.start begun).tasks[4]? = some (.sumFetch (stateRootOf L (state 1000000))) := rfl

end BeaconBridgeExample

open BeaconBridgeExample BeaconValidatorExample in
/-- When the tasks of two ticks overlap, the same update, bootstrap and summaries are announced twice, and the
known finalized slot goes back, so that an update announced before is announced again. -/
theorem C77_overlap_violated :
    ∃ (H : Id → Id → Id) (evs : List (Event String)),
      periods (BeaconBridge.exec H Bridge.start evs).log = [122, 122] ∧
      bootRoots (BeaconBridge.exec H Bridge.start evs).log = [77, 77] ∧
      finalSlots (BeaconBridge.exec H Bridge.start evs).log = [9, 10, 10] ∧
      epochs (BeaconBridge.exec H Bridge.start evs).log = [31250, 31250] := by
  refine ⟨L, [.tick, .tick, .tick] ++
    -- two tasks ask before either of them has stored anything
    (List.replicate 3 (.run 0 world) ++ List.replicate 7 (.run 5 world) ++ List.replicate 4 (.run 0 world)) ++
    (List.replicate 2 (.run 1 world) ++ List.replicate 4 (.run 6 world) ++ List.replicate 2 (.run 1 world)) ++
    (List.replicate 2 (.run 2 { world with finality := some (final 9) }) ++
      List.replicate 3 (.run 7 { world with finality := some (final 10) }) ++
      [.run 2 world] ++ List.replicate 3 (.run 12 { world with finality := some (final 10) })) ++
    (List.replicate 3 (.run 4 world) ++ List.replicate 7 (.run 9 world) ++ List.replicate 4 (.run 4 world)),
    ?_, ?_, ?_, ?_⟩ <;> decide +kernel

open BeaconBridgeExample BeaconValidatorExample in
/-- The root that is compared and the state that is downloaded are asked for separately: if finality advances in
between, the summaries of one state are announced twice although all tasks ended in time. -/
theorem C77_mixed_violated :
    ∃ (H : Id → Id → Id) (evs : List (Event String)), InTime H servingSummaries evs ∧
      epochs (BeaconBridge.exec H Bridge.start evs).log = [31251, 31251] ∧
      ∃ r, provenRoots H (BeaconBridge.exec H Bridge.start evs).log = [r, r] := by
  refine ⟨L, .tick :: List.replicate 7 (.run 4 { world with state := some (state 1000032) }) ++
    .tick :: List.replicate 7 (.run 9 { world with
      finalizedState := some (stateRootOf L (state 1000032)), state := some (state 1000032) }),
    inTime_of (by decide +kernel), by decide +kernel, stateRootOf L (state 1000032), by decide +kernel⟩

open BeaconBridgeExample BeaconValidatorExample in
/-- A period counts as served although nobody was selected to receive its update; it is not announced again. -/
theorem C77_nobody_violated :
    ∃ (H : Id → Id → Id) (evs : List (Event String)),
      periods (BeaconBridge.exec H Bridge.start evs).log = [122] ∧
      ∀ later, InTime H servingUpdate (evs ++ later) →
        ∀ a ∈ (BeaconBridge.exec H Bridge.start (evs ++ later)).log, ∀ c, a.key = .updatesByRange 122 c →
          a.peers = [] := by
  let evs : List (Event String) := .tick :: List.replicate 4 (.run 1 { world with peers := fun _ => none })
  have h1 : periods (BeaconBridge.exec L Bridge.start evs).log = [122] := by decide +kernel
  have h2 : (BeaconBridge.exec L Bridge.start evs).log.all (fun a => a.peers.isEmpty) = true := by decide +kernel
  refine ⟨L, evs, h1, fun later hin a ha c hk => ?_⟩
  have hp := C77_updates_partial L _ hin
  rw [exec_append] at ha hp
  obtain ⟨more, hm⟩ := log_grows L later (BeaconBridge.exec L Bridge.start evs)
  rw [hm] at ha hp
  rcases List.mem_append.mp ha with ha | ha
  · simpa using List.all_eq_true.mp h2 a ha
  · rw [show periods ((BeaconBridge.exec L Bridge.start evs).log ++ more) =
      periods (BeaconBridge.exec L Bridge.start evs).log ++ periods more by simp [periods], h1] at hp
    have hmem : (122 : UInt64) ∈ periods more := List.mem_filterMap.mpr ⟨a, ha, by rw [hk]⟩
    exact absurd ((List.pairwise_append.mp hp).2.2 122 (by simp) 122 hmem) (UInt64.lt_irrefl _)

end Verif.Props
