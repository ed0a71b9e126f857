import Verif.Model.Census

/-! # C45: bridge census -/

namespace Verif.Props
open Verif.Census

/-- The weight is within `[0, maximum]`. -/
theorem C45_weight_bounds (w : AdditiveWeight) (content : Option (Bool × Id)) (p : Peer) (now : Nat) :
    weight w content p now ≤ w.maximumWeight := by
  unfold weight
  split
  · exact Nat.zero_le _
  · omega

/-- For an interested peer the weight is the starting weight plus the weights of the recent events,
clamped to that interval. -/
theorem C45_weight_value (w : AdditiveWeight) (content : Option (Bool × Id)) (p : Peer) (now : Nat)
    (h : ∀ a c, content = some (a, c) → a = true → xorDistance p.nodeId c ≤ p.radius) :
    (rawWeight w p now ≤ 0 → weight w content p now = 0) ∧
    (0 ≤ rawWeight w p now → rawWeight w p now ≤ w.maximumWeight →
      (weight w content p now : Int) = rawWeight w p now) ∧
    ((w.maximumWeight : Int) ≤ rawWeight w p now → weight w content p now = w.maximumWeight) := by
  have hint : wants p content = true := by
    cases content with
    | none => rfl
    | some ac =>
      obtain ⟨a, c⟩ := ac
      cases a with
      | false => rfl
      | true => simpa [wants, Peer.isInterested] using h true c rfl rfl
  unfold weight
  simp only [hint, Bool.not_true, Bool.false_eq_true, if_false]
  omega

/-- A peer whose radius does not cover the content gets weight 0, whatever its history. -/
theorem C45_not_interested (w : AdditiveWeight) (c : Id) (p : Peer) (now : Nat)
    (h : p.radius < xorDistance p.nodeId c) : weight w (some (true, c)) p now = 0 := by
  unfold weight wants Peer.isInterested
  simp; omega

/-- With the default parameters and the bounded history the value stays within the 32-bit integer
range used by the code, so unbounded integers are faithful. -/
theorem C45_weight_no_overflow (p : Peer) (now : Nat)
    (h1 : p.livenessChecks.length ≤ 10) (h2 : p.offerEvents.length ≤ 255) :
    -2450 ≤ rawWeight .default p now ∧ rawWeight .default p now ≤ 1525 := by
  have bound : ∀ (l : List Int), (∀ x ∈ l, -10 ≤ x ∧ x ≤ 5) →
      -10 * (l.length : Int) ≤ l.sum ∧ l.sum ≤ 5 * (l.length : Int) := by
    intro l
    induction l with
    | nil => simp
    | cons x l ih =>
      intro hl
      have := hl x (by simp)
      have := ih (fun y hy => hl y (by simp [hy]))
      simp only [List.sum_cons, List.length_cons]
      omega
  unfold rawWeight
  simp only
  have b1 := bound (((p.livenessChecks.filter
    (fun c => now - c.timestamp ≤ AdditiveWeight.default.timeframe)).map
      (livenessWeight .default))) (by
    intro x hx
    rw [List.mem_map] at hx
    obtain ⟨c, -, rfl⟩ := hx
    unfold livenessWeight AdditiveWeight.default
    split <;> simp)
  have b2 := bound (((p.offerEvents.filter
    (fun c => now - c.timestamp ≤ AdditiveWeight.default.timeframe)).map
      (offerWeight .default))) (by
    intro x hx
    rw [List.mem_map] at hx
    obtain ⟨e, -, rfl⟩ := hx
    unfold offerWeight
    split
    · next code _ => cases code <;> simp [AdditiveWeight.default]
    · simp [AdditiveWeight.default])
  rw [List.length_map] at b1 b2
  have l1 := List.length_filter_le
    (fun c : LivenessCheck => decide (now - c.timestamp ≤ AdditiveWeight.default.timeframe))
    p.livenessChecks
  have l2 := List.length_filter_le
    (fun c : OfferEvent => decide (now - c.timestamp ≤ AdditiveWeight.default.timeframe))
    p.offerEvents
  have : (AdditiveWeight.default.startingWeight : Int) = 200 := rfl
  omega

theorem mem_choice {α} {limit : Nat} {l chosen : List α} (h : IsChoice limit l chosen) :
    chosen.length ≤ limit ∧ (∀ x ∈ chosen, x ∈ l) ∧ (l.Nodup → chosen.Nodup) ∧
    chosen.length = min limit l.length := by
  obtain ⟨idx, hnd, hlt, hlen, rfl⟩ := h
  have hfull : ∀ idx : List Nat, (∀ i ∈ idx, i < l.length) →
      (idx.filterMap (fun i => l[i]?)).length = idx.length := by
    intro idx
    induction idx with
    | nil => simp
    | cons i idx ih =>
      intro hi
      have h0 := hi i (by simp)
      rw [List.filterMap_cons, List.getElem?_eq_getElem h0]
      simp only [List.length_cons]
      rw [ih (fun j hj => hi j (by simp [hj]))]
  have e := hfull idx hlt
  refine ⟨by omega, ?_, ?_, by omega⟩
  · intro x hx
    rw [List.mem_filterMap] at hx
    obtain ⟨i, -, hx⟩ := hx
    exact List.mem_of_getElem? hx
  · intro hl
    clear e hlen hfull
    induction idx with
    | nil => simp
    | cons i idx ih =>
      have h0 := hlt i (by simp)
      rw [List.filterMap_cons, List.getElem?_eq_getElem h0]
      simp only
      rw [List.nodup_cons]
      refine ⟨?_, ih (List.nodup_cons.1 hnd).2 (fun j hj => hlt j (by simp [hj]))⟩
      intro hx
      rw [List.mem_filterMap] at hx
      obtain ⟨j, hj, hxj⟩ := hx
      have hjl := hlt j (by simp [hj])
      rw [List.getElem?_eq_getElem hjl] at hxj
      have heq := Option.some.inj hxj
      have hpw := List.pairwise_iff_getElem.1 hl
      rcases Nat.lt_trichotomy i j with h' | h' | h'
      · exact hpw i j h0 hjl h' heq.symm
      · subst h'; exact (List.nodup_cons.1 hnd).1 hj
      · exact hpw j i hjl h0 h' heq

/-- Selection: for every outcome of the random choice, at most `limit` peers are returned, all
different, each a known peer that wants the content, and as many as there are candidates if there
are fewer. -/
theorem C45_selection (w : AdditiveWeight) (content : Option (Bool × Id)) (peers : List Peer)
    (hnd : peers.Nodup) (now limit : Nat) (chosen : List Peer)
    (h : IsChoice limit (candidates w content peers now) chosen) :
    chosen.length ≤ limit ∧ chosen.Nodup ∧
    chosen.length = min limit (candidates w content peers now).length ∧
    ∀ p ∈ chosen, p ∈ peers ∧ 0 < weight w content p now ∧
      ∀ c, content = some (true, c) → xorDistance p.nodeId c ≤ p.radius := by
  obtain ⟨h1, h2, h3, h4⟩ := mem_choice h
  refine ⟨h1, h3 ?_, h4, ?_⟩
  · exact List.Nodup.sublist List.filter_sublist hnd
  · intro p hp
    have hmem := h2 p hp
    unfold candidates at hmem
    rw [List.mem_filter] at hmem
    obtain ⟨hp1, hp2⟩ := hmem
    have hp2 : 0 < weight w content p now := by simpa using hp2
    refine ⟨hp1, hp2, ?_⟩
    intro c hc
    apply Classical.byContradiction
    intro hcon
    rw [hc, C45_not_interested w c p now (by omega)] at hp2
    omega

/-! ## Membership over histories

Specification of one peer: `none` if it is not tracked, otherwise the results of its liveness checks
since it was (re)discovered, newest first. A peer becomes tracked by a successful check and is dropped
exactly when its latest ten checks have all failed. -/

def specStep (id : Id) (h : Option (List Bool)) : Op → Option (List Bool)
  | .success i _ _ _ _ => if i = id then some (true :: h.getD []) else h
  | .failure i _ =>
    if i = id then
      match h with
      | none => none
      | some l => if (false :: l).take 10 = List.replicate 10 false then none else some (false :: l)
    else h
  | _ => h

def specRun (id : Id) (ops : List Op) : Option (List Bool) := ops.foldl (specStep id) none

/-- Relation between a tracked peer and its specification. -/
def Agrees (p : Option Peer) (h : Option (List Bool)) : Prop :=
  match p, h with
  | none, none => True
  | some p, some l => p.livenessChecks.map (·.success) = l.take 10 ∧ p.offerEvents.length ≤ 255
  | _, _ => False

theorem purge_liveness (p : Peer) :
    p.purge.livenessChecks = p.livenessChecks.take 10 ∧ p.purge.offerEvents.length ≤ 255 := by
  unfold Peer.purge
  refine ⟨?_, ?_⟩
  · simp only
    split
    · rfl
    · rw [List.take_of_length_le (by simp [maxLivenessChecks] at *; omega)]
  · simp only
    split
    · rw [List.length_take]; exact Nat.min_le_left _ _
    · simp [maxOfferEvents] at *; omega

theorem take_cons_take {α} (a : α) (l : List α) :
    (a :: l.take 10).take 10 = (a :: l).take 10 := by
  simp [List.take_take]

theorem obsolete_iff (p : Peer) (l : List Bool)
    (h : p.livenessChecks.map (·.success) = l.take 10) :
    p.isObsolete = true ↔ l.take 10 = List.replicate 10 false := by
  unfold Peer.isObsolete
  have hlen : p.livenessChecks.length = (l.take 10).length := by rw [← h, List.length_map]
  constructor
  · intro ho
    split at ho
    · cases ho
    · next hn =>
      have h10 : p.livenessChecks.length = 10 := by
        simp [maxLivenessChecks, List.length_take] at *; omega
      rw [← h, List.eq_replicate_iff]
      refine ⟨by rw [List.length_map, h10], ?_⟩
      intro b hb
      rw [List.mem_map] at hb
      obtain ⟨c, hc, rfl⟩ := hb
      have := List.all_eq_true.1 ho c hc
      simpa using this
  · intro hr
    have h10 : p.livenessChecks.length = 10 := by rw [hlen, hr, List.length_replicate]
    rw [if_neg (by simp [h10]), List.all_eq_true]
    intro c hc
    have : c.success ∈ p.livenessChecks.map (·.success) := List.mem_map.2 ⟨c, hc, rfl⟩
    rw [h, hr, List.mem_replicate] at this
    simp [this.2]

theorem step_agrees (s : Peers) (id : Id) (h : Option (List Bool)) (op : Op)
    (ha : Agrees (s.peers id) h) : Agrees ((s.step op).peers id) (specStep id h op) := by
  cases op with
  | success i seq client radius now =>
    simp only [Peers.step, specStep, update]
    by_cases hi : i = id
    · subst hi
      simp only [if_true]
      have base : ((s.peers i).getD (Peer.new i seq)).livenessChecks.map (·.success) =
          (h.getD []).take 10 := by
        cases hp : s.peers i with
        | none =>
          rw [hp] at ha
          cases h with
          | none => simp [Peer.new]
          | some l => exact absurd ha id
        | some p =>
          rw [hp] at ha
          cases h with
          | none => exact absurd ha id
          | some l => exact ha.1
      refine ⟨?_, (purge_liveness _).2⟩
      unfold Peer.recordSuccess
      rw [(purge_liveness _).1]
      simp only [List.map_take, List.map_cons, base]
      rw [take_cons_take]
    · rw [if_neg hi, if_neg (fun e => hi e.symm)]; exact ha
  | failure i now =>
    simp only [Peers.step, specStep]
    by_cases hi : i = id
    · subst hi
      simp only [if_true]
      cases hp : s.peers i with
      | none =>
        rw [hp] at ha
        cases h with
        | none => simp [Agrees, hp]
        | some l => exact absurd ha id
      | some p =>
        rw [hp] at ha
        cases h with
        | none => exact absurd ha id
        | some l =>
          have hrec : (p.recordFailure now).livenessChecks.map (·.success) =
              (false :: l).take 10 := by
            unfold Peer.recordFailure
            rw [(purge_liveness _).1]
            simp only [List.map_take, List.map_cons, ha.1]
            rw [take_cons_take]
          have hob := obsolete_iff (p.recordFailure now) (false :: l) hrec
          simp only
          by_cases ho : (p.recordFailure now).isObsolete = true
          · rw [if_pos ho, if_pos (hob.1 ho)]
            simp [Agrees, update]
          · rw [if_neg ho, if_neg (fun e => ho (hob.2 e))]
            simp only [update, if_true]
            exact ⟨hrec, (purge_liveness _).2⟩
    · rw [if_neg hi]
      cases hp : s.peers i with
      | none => exact ha
      | some p =>
        simp only
        split
        · simp only [update]; rw [if_neg (fun e => hi e.symm)]; exact ha
        · simp only [update]; rw [if_neg (fun e => hi e.symm)]; exact ha
  | offer i trace now =>
    simp only [Peers.step, specStep]
    cases hp : s.peers i with
    | none => exact ha
    | some p =>
      simp only [update]
      by_cases hi : id = i
      · subst hi
        rw [if_pos rfl]
        rw [hp] at ha
        cases h with
        | none => exact absurd ha (fun x => x)
        | some l =>
          refine ⟨?_, (purge_liveness _).2⟩
          unfold Peer.recordOffer
          rw [(purge_liveness _).1]
          simp only [List.map_take, ha.1, List.take_take, Nat.min_self]
      · rw [if_neg hi]; exact ha
  | pollExpired i => exact ha

theorem run_agrees (s : Peers) (id : Id) (h : Option (List Bool)) (ops : List Op)
    (ha : Agrees (s.peers id) h) : Agrees ((s.run ops).peers id) (ops.foldl (specStep id) h) := by
  induction ops generalizing s h with
  | nil => exact ha
  | cons op ops ih => exact ih (s.step op) (specStep id h op) (step_agrees s id h op ha)

/-- After every history of events, a peer is tracked exactly when the specification says so, and the
remembered checks are the latest (at most) ten of its history. -/
theorem C45_tracked_iff (ops : List Op) (id : Id) :
    (((Peers.new.run ops).peers id).isSome ↔ (specRun id ops).isSome) ∧
    ∀ p l, (Peers.new.run ops).peers id = some p → specRun id ops = some l →
      p.livenessChecks.map (·.success) = l.take 10 := by
  have h := run_agrees Peers.new id none ops (by simp [Agrees, Peers.new])
  unfold specRun
  revert h
  cases (Peers.new.run ops).peers id <;> cases ops.foldl (specStep id) none <;>
    simp [Agrees]
  intro h1 _; exact h1

/-- The remembered history of each peer stays bounded: at most 10 liveness checks and 255 offers. -/
theorem C45_history_bounded (ops : List Op) (id : Id) (p : Peer)
    (hp : (Peers.new.run ops).peers id = some p) :
    p.livenessChecks.length ≤ 10 ∧ p.offerEvents.length ≤ 255 := by
  have h := run_agrees Peers.new id none ops (by simp [Agrees, Peers.new])
  rw [hp] at h
  cases hl : ops.foldl (specStep id) none with
  | none => rw [hl] at h; exact absurd h (fun x => x)
  | some l =>
    rw [hl] at h
    refine ⟨?_, h.2⟩
    have := congrArg List.length h.1
    rw [List.length_map, List.length_take] at this
    omega

/-- Every pending liveness check belongs to a tracked peer, so the "unknown peer" branch of the stream
is never taken; and every record in the table carries its own node id. -/
theorem C45_scheduled_tracked (ops : List Op) (id : Id) :
    ((Peers.new.run ops).scheduled id = true → ((Peers.new.run ops).peers id).isSome) ∧
    (∀ p, (Peers.new.run ops).peers id = some p → p.nodeId = id) := by
  have key : ∀ s : Peers, (∀ id, (s.scheduled id = true → (s.peers id).isSome) ∧
      (∀ p, s.peers id = some p → p.nodeId = id)) →
      ∀ ops : List Op, ∀ id, ((s.run ops).scheduled id = true → ((s.run ops).peers id).isSome) ∧
      (∀ p, (s.run ops).peers id = some p → p.nodeId = id) := by
    intro s hs ops
    induction ops generalizing s with
    | nil => exact hs
    | cons op ops ih =>
      apply ih (s.step op)
      intro id
      cases op with
      | success i seq client radius now =>
        simp only [Peers.step, update]
        by_cases hi : id = i
        · subst hi
          simp only [if_true, Option.isSome_some, implies_true, true_and]
          intro p hp
          cases hp
          cases hq : s.peers id with
          | none => rfl
          | some q => exact (hs id).2 q hq
        · simp only [if_neg hi]; exact hs id
      | failure i now =>
        simp only [Peers.step]
        cases hp : s.peers i with
        | none =>
          refine ⟨fun hsch => (hs id).1 ?_, (hs id).2⟩
          simp only [update] at hsch
          split at hsch
          · cases hsch
          · exact hsch
        | some p =>
          simp only
          split
          · simp only [update]
            by_cases hi : id = i
            · subst hi; simp
            · simp only [if_neg hi]; exact hs id
          · simp only [update]
            by_cases hi : id = i
            · subst hi
              simp only [if_true, Option.isSome_some, implies_true, true_and]
              intro q hq; cases hq; exact (hs id).2 p hp
            · simp only [if_neg hi]; exact hs id
      | offer i trace now =>
        simp only [Peers.step]
        cases hp : s.peers i with
        | none => exact hs id
        | some p =>
          simp only [update]
          by_cases hi : id = i
          · subst hi
            simp only [if_true, Option.isSome_some, implies_true, true_and]
            intro q hq; cases hq; exact (hs id).2 p hp
          · simp only [if_neg hi]; exact hs id
      | pollExpired i =>
        refine ⟨fun hsch => (hs id).1 ?_, (hs id).2⟩
        simp only [Peers.step, update] at hsch
        split at hsch
        · cases hsch
        · exact hsch
  exact key Peers.new (by simp [Peers.new]) ops id

/-- After a successful check the tracked record has exactly the reported radius and client, a sequence
number at least the reported and the previous one, and the check is scheduled again; other peers are
unaffected. -/
theorem C45_success_recorded (s : Peers) (i : Id) (seq client radius now : Nat) :
    ∃ p, (s.step (.success i seq client radius now)).peers i = some p ∧
      p.radius = radius ∧ p.clientType = client ∧ seq ≤ p.seq ∧
      (∀ q, s.peers i = some q → q.seq ≤ p.seq ∧ (p.seq = q.seq ∨ p.seq = seq)) ∧
      (s.step (.success i seq client radius now)).scheduled i = true ∧
      ∀ j, j ≠ i → (s.step (.success i seq client radius now)).peers j = s.peers j := by
  refine ⟨((s.peers i).getD (Peer.new i seq)).recordSuccess seq client radius now, ?_, rfl, rfl, ?_,
    ?_, ?_, ?_⟩
  · simp [Peers.step, update]
  · simp only [Peer.recordSuccess, Peer.purge]; split <;> omega
  · intro q hq
    simp only [Peer.recordSuccess, Peer.purge, hq, Option.getD_some]
    split <;> omega
  · simp [Peers.step, update]
  · intro j hj; simp [Peers.step, update, hj]

/- A tracked peer dropped by its tenth failure in a row, and not by the ninth. -/
example : specRun 7 (.success 7 1 0 5 0 :: List.replicate 9 (.failure 7 1)) =
    some (List.replicate 9 false ++ [true]) := by decide
example : ((Peers.new.run (.success 7 1 0 5 0 :: List.replicate 9 (.failure 7 1))).peers 7).isSome
    ∧ ((Peers.new.run (.success 7 1 0 5 0 :: List.replicate 10 (.failure 7 1))).peers 7).isNone := by
  decide
example : weight .default (some (true, 3)) ⟨1, 1, 0, 5, [⟨true, 0⟩], [⟨.failed, 0⟩]⟩ 10 = 195 := by
  decide

end Verif.Props
