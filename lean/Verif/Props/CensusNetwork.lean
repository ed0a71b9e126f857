import Verif.Lemmas.CensusNetwork3
import Verif.Lemmas.QueryFinish
import Verif.Lemmas.ExceptEq

/-! # C86: the bridge's view of a subnetwork

`life rounds actions = some (s, log)` means: the view is `s` after the network was explored in the
given rounds and then the given actions happened, and `log` lists the exchanges with peers. -/

namespace Verif.Props
open Verif.CensusNet Verif.Census CensusLife

/-! ## What the bridge believes -/

/-- The view is exactly what the exchanges show: a node is in it if and only if it has passed a check
and its last ten checks have not all failed since; record, client type and radius are the last ones
learnt, and the last ten results are remembered. -/
theorem C86_view {rounds : List Round} {actions : List Action} {s : State} {log : List Exchange}
    (h : life rounds actions = some (s, log)) (id : Id) :
    (s.get id).map (fun e => (e.enr, e.peer.clientType, e.peer.radius,
        e.peer.livenessChecks.map (·.success))) =
      (known id log).map (fun k => (k.record, k.client, k.radius, k.results.take 10)) :=
  (inv_life h).view id

/-- A node that the bridge may choose for an offer has answered a ping with its capabilities. Its
radius and client type are those of the last such answer, it has failed fewer than ten checks since,
and, if the radius matters for the content, the content lies within that radius. -/
theorem C86_selected {rounds : List Round} {actions : List Action} {s : State} {log : List Exchange}
    (h : life rounds actions = some (s, log)) {w : AdditiveWeight} {content : Option (Bool × Id)}
    {now : Nat} {chosen : List Peer} (hs : s.candidates w content now = .ok chosen) {p : Peer}
    (hp : p ∈ chosen) :
    (∃ a x b r, log = a ++ x :: b ∧ x.enr.id = p.nodeId ∧
      verdict x = .passed r p.clientType p.radius ∧
      (∀ y ∈ b, y.enr.id = p.nodeId → ∀ r' c' d', verdict y ≠ .passed r' c' d') ∧
      (b.filter (fun y => decide (y.enr.id = p.nodeId) &&
        isFailed y)).length < 10) ∧
    ∀ cid, content = some (true, cid) → xorDistance p.nodeId cid ≤ p.radius := by
  unfold State.candidates at hs
  split at hs
  · cases hs
  · cases hs
    unfold Census.candidates at hp
    rw [List.mem_filter, List.mem_map] at hp
    obtain ⟨⟨e, he, rfl⟩, hw⟩ := hp
    have hg : s.get e.peer.nodeId = some e := get_of_mem (within_life h) he
    have hv := (inv_life h).view e.peer.nodeId
    rw [hg] at hv
    constructor
    · cases hk : known e.peer.nodeId log with
      | none => rw [hk] at hv; simp at hv
      | some k =>
        rw [hk] at hv
        simp only [Option.map_some, Option.some.injEq, look, lookKnown, Prod.mk.injEq] at hv
        obtain ⟨a, x, b, r, n, e1, e2, e3, e4, e5, e6, e7, e8⟩ := known_last _ log k hk
        refine ⟨a, x, b, r, e1, e2, ?_, e4, by rw [e8]; exact e5⟩
        rw [hv.2.1, hv.2.2.1]
        exact e3
    · intro cid hc
      subst hc
      simp only [decide_eq_true_eq] at hw
      unfold Census.weight wants Peer.isInterested at hw
      simp only [if_true] at hw
      by_cases hle : xorDistance e.peer.nodeId cid ≤ e.peer.radius
      · exact hle
      · simp [hle] at hw

/-- There is nobody to choose from, and the call reports it, exactly when no node is known. -/
theorem C86_nobody {rounds : List Round} {actions : List Action} {s : State} {log : List Exchange}
    (h : life rounds actions = some (s, log)) (w : AdditiveWeight) (content : Option (Bool × Id))
    (now : Nat) :
    s.candidates w content now = .error .noPeers ↔ ∀ id, known id log = none := by
  have hv := (inv_life h).view
  unfold State.candidates
  constructor
  · intro he id
    split at he
    · rename_i hem
      have hnone : s.get id = none := by
        unfold State.get
        rw [List.isEmpty_iff.mp hem]; rfl
      have := hv id
      rw [hnone] at this
      cases hk : known id log with
      | none => rfl
      | some k => rw [hk] at this; simp at this
    · cases he
  · intro hk
    have : s.entries.isEmpty = true := by
      cases hs : s.entries with
      | nil => rfl
      | cons e l =>
        exfalso
        have h1 := hv e.peer.nodeId
        have h2 : s.get e.peer.nodeId = some e := by
          unfold State.get; rw [hs]; simp
        rw [h2, hk] at h1
        simp at h1
    simp [this]

/-- The record kept for a node is its own and was either the one used to reach it in a check that it
passed, or one that it sent in such a check. -/
theorem C86_record {rounds : List Round} {actions : List Action} {s : State} {log : List Exchange}
    (h : life rounds actions = some (s, log)) {id : Id} {e : Entry} (he : s.get id = some e) :
    e.enr.id = id ∧ ∃ x ∈ log, x.enr.id = id ∧
      (e.enr = x.enr ∨ ∃ l, x.check.reply.nodes = some l ∧ e.enr ∈ l) ∧
      ∃ p, x.check.reply.pong = some p ∧ p.capabilities.isSome := by
  refine ⟨get_id he, ?_⟩
  have hv := (inv_life h).view id
  rw [he] at hv
  cases hk : known id log with
  | none => rw [hk] at hv; simp at hv
  | some k =>
    rw [hk] at hv
    simp only [Option.map_some, Option.some.injEq, look, lookKnown, Prod.mk.injEq] at hv
    rw [hv.1]
    clear hv he h
    have key : ∃ x ∈ log, x.enr.id = id ∧ ∃ c d, verdict x = .passed k.record c d := by
      generalize hn : log.length = n
      induction n using Nat.strongRecOn generalizing log k with
      | _ n ih =>
        obtain ⟨a, x, b, r, m, e1, e2, e3, e4, e5, e6, e7, e8⟩ := known_last id log k hk
        by_cases hr : k.record = r
        · exact ⟨x, by rw [e1]; simp, e2, _, _, hr ▸ e3⟩
        · cases hka : known id a with
          | none => rw [hka] at e7; exact absurd e7 hr
          | some old =>
            rw [hka] at e7
            simp only [newer] at e7
            split at e7
            · obtain ⟨y, hy, h1, c, d, h2⟩ := ih a.length (by rw [← hn, e1]; simp) old hka rfl
              exact ⟨y, by rw [e1]; simp [hy], h1, c, d, e7 ▸ h2⟩
            · exact absurd e7 hr
    obtain ⟨x, hx, hxi, c, d, hv⟩ := key
    refine ⟨x, hx, hxi, ?_⟩
    unfold verdict at hv
    split at hv
    · cases hv
    · cases hv
    · rename_i p1 p2 p3 hp
      refine ⟨?_, ⟨_, hp, rfl⟩⟩
      split at hv
      · injection hv with hv1; exact Or.inl hv1.symm
      · split at hv
        · rename_i hf
          injection hv with hv1
          right
          rw [← hv1]
          cases hn : x.check.reply.nodes with
          | none => rw [hn] at hf; simp at hf
          | some l =>
            rw [hn] at hf
            exact ⟨l, rfl, List.mem_of_find?_eq_some hf⟩
        · cases hv

/-! ## When peers are checked -/

/-- A known node is not bothered again within five minutes of the last result (unless it has once
answered oddly, see `C86_forgotten_violated`). -/
theorem C86_gap {rounds : List Round} {actions : List Action} {s : State}
    {a b : List Exchange} {x : Exchange}
    (h : life rounds actions = some (s, a ++ x :: b)) (hodd : NoOdd x.enr.id a) {k : Known}
    (hk : known x.enr.id a = some k) : k.last + fiveMinutes ≤ x.check.start :=
  (inv_life h).gap a x b rfl hodd k hk

/-- A check is scheduled only for a known node, five minutes after its last result. -/
theorem C86_due {rounds : List Round} {actions : List Action} {s : State} {log : List Exchange}
    (h : life rounds actions = some (s, log)) {id : Id} {d : Nat} (hd : s.deadline id = some d) :
    ∃ k, known id log = some k ∧ d = k.last + fiveMinutes :=
  (inv_life h).due id d hd

/-- Every known node has its next check scheduled, five minutes after its last result. Partial: only
for a node that has never answered a ping with anything but its capabilities
(`C86_forgotten_violated`). -/
theorem C86_scheduled_partial {rounds : List Round} {actions : List Action} {s : State}
    {log : List Exchange} (h : life rounds actions = some (s, log)) {id : Id} (hodd : NoOdd id log)
    {k : Known} (hk : known id log = some k) : s.deadline id = some (k.last + fiveMinutes) :=
  (inv_life h).scheduled id hodd k hk

/-- A scheduled check takes place when its time has come, and not before: the ping goes to the node
with the record that the view has of it. -/
theorem C86_check {rounds : List Round} {actions : List Action} {s : State} {log : List Exchange}
    (h : life rounds actions = some (s, log)) {id : Id} {d : Nat} (hd : s.deadline id = some d)
    (c : Check) :
    (c.start < d → step s (.check id c) = none) ∧
    (d ≤ c.start → ∃ e t, s.get id = some e ∧ step s (.check id c) = some (t, [⟨e.enr, c⟩])) := by
  constructor
  · intro hlt
    simp only [step, expire, hd]
    rw [if_neg (by omega)]
  · intro hle
    obtain ⟨k, hk, _⟩ := (inv_life h).due id d hd
    have hv := (inv_life h).view id
    cases hg : s.get id with
    | none => rw [hg, hk] at hv; simp at hv
    | some e =>
      have henr : e.enr.id = id := get_id hg
      have hnf : (s.unschedule id).isFresh e.enr.id c.start = false := by
        unfold State.isFresh
        rw [henr, deadline_unschedule, if_pos rfl]
      refine ⟨e, (pinged (s.unschedule id) e.enr c).1, rfl, ?_⟩
      simp only [step, expire, hd, if_pos hle, hg, livenessCheck, hnf, Bool.false_eq_true, if_false]

/-! ## Exploring the network -/

/-- A round of exploration checks every node that the lookups found once, with the newest of the
records found. -/
theorem C86_newest (found : List (Option (List Enr))) :
    ((newest found).map (·.id)).Nodup ∧
    (∀ e ∈ newest found, ∃ l, some l ∈ found ∧ e ∈ l) ∧
    (∀ l, some l ∈ found → ∀ e ∈ l, ∃ x ∈ newest found, x.id = e.id ∧ e.seq ≤ x.seq) := by
  have g := newest_groups found
  exact ⟨g.nodup, fun e he => mem_found.mp (g.sub e he),
    fun l hl e he => g.cover e (mem_found.mpr ⟨l, hl, he⟩)⟩

/-- The checks of a round may happen in any order: the resulting view is the same. -/
theorem C86_order (s : State) (probe : Enr → Check) {es fs : List Enr} (hp : es.Perm fs)
    (hn : (es.map (·.id)).Nodup) (id : Id) :
    (checkAll s probe es).1.get id = (checkAll s probe fs).1.get id ∧
      (checkAll s probe es).1.deadline id = (checkAll s probe fs).1.deadline id := by
  have h1 := checkAll_at probe id es s hn
  have h2 := checkAll_at probe id fs s ((hp.map _).nodup_iff.mp hn)
  rw [find_perm hp hn id, ← h2] at h1
  exact ⟨congrArg Prod.fst h1, congrArg Prod.snd h1⟩

/-- A view that has no check scheduled, and only such a view, explores the network again. -/
theorem C86_again (s : State) (rounds : List Round) :
    ((step s (.reinit rounds)).isSome ↔ ∀ id, s.deadline id = none) ∧
    ∀ t log, step s (.reinit rounds) = some (t, log) → t = (init s rounds).1 ∧ log = (init s rounds).2.1 := by
  have hd : s.checks.isEmpty ↔ ∀ id, s.deadline id = none := by
    rw [List.isEmpty_iff]
    constructor
    · intro h id; unfold State.deadline; rw [h]; rfl
    · intro h
      cases hc : s.checks with
      | nil => rfl
      | cons c cs =>
        have := h c.1
        unfold State.deadline at this
        rw [hc] at this
        simp at this
  simp only [step]
  constructor
  · rw [← hd]
    split <;> simp [*]
  · intro t log h
    split at h
    · cases h; exact ⟨rfl, rfl⟩
    · cases h

/-- Exploring goes on as long as every round adds at least a tenth of all peers. -/
theorem C86_init_running (s : State) (rounds : List Round) :
    (init s rounds).2.2 = none ↔
      ∀ k, k < rounds.length →
        ¬ FewNew (explored s (rounds.take k)) (explored s (rounds.take (k + 1))) := by
  induction rounds generalizing s with
  | nil => simp [init]
  | cons r rs ih =>
    unfold init
    simp only
    split
    · rename_i hst
      rw [initStops_iff] at hst
      simp only [reduceCtorEq, false_iff]
      intro hc
      exact hc 0 (by simp) (by simpa [explored] using hst)
    · rename_i hst
      rw [initStops_iff] at hst
      simp only
      rw [ih]
      constructor
      · intro hc k hk
        cases k with
        | zero => simpa [explored] using hst
        | succ k => simpa [explored] using hc k (by simpa using hk)
      · intro hc k hk
        simpa [explored] using hc (k + 1) (by simpa using hk)

/-- Exploring ends with the first round that adds fewer, successfully if and only if anybody is
known then. -/
theorem C86_init_done (s : State) (rounds : List Round) (r : Except CensusError Unit)
    (h : (init s rounds).2.2 = some r) :
    ∃ k, k < rounds.length ∧ (init s rounds).1 = explored s (rounds.take (k + 1)) ∧
      FewNew (explored s (rounds.take k)) (init s rounds).1 ∧
      (∀ j, j < k → ¬ FewNew (explored s (rounds.take j)) (explored s (rounds.take (j + 1)))) ∧
      (r = .ok () ↔ (init s rounds).1.entries ≠ []) ∧
      (r = .error .noPeersFound ↔ (init s rounds).1.entries = []) := by
  induction rounds generalizing s with
  | nil => simp [init] at h
  | cons q rs ih =>
    unfold init at h ⊢
    simp only at h ⊢
    by_cases hst : initStops s.entries.length (initRound s q).1.entries.length = true
    · rw [if_pos hst] at h ⊢
      simp only [Option.some.injEq] at h
      rw [initStops_iff] at hst
      refine ⟨0, by simp, by simp [explored], by simpa [explored] using hst, by simp, ?_, ?_⟩
      · rw [← h]
        cases (initRound s q).1.entries <;> simp
      · rw [← h]
        cases (initRound s q).1.entries <;> simp
    · rw [if_neg hst] at h ⊢
      simp only at h ⊢
      obtain ⟨k, h1, h2, h3, h4, h5, h6⟩ := ih (initRound s q).1 h
      rw [initStops_iff] at hst
      refine ⟨k + 1, by simpa using h1, by simpa [explored] using h2,
        by simpa [explored] using h3, ?_, h5, h6⟩
      intro j hj
      cases j with
      | zero => simpa [explored] using hst
      | succ j => simpa [explored] using h4 j (by omega)

/-- In a network of finitely many nodes the exploration ends: after as many rounds as there are nodes
and one more, provided that somebody is known after each of the rounds. -/
theorem C86_init_ends (rounds : List Round) (nodes : List Id)
    (hf : ∀ r ∈ rounds, ∀ l, some l ∈ r.found → ∀ e ∈ l, e.id ∈ nodes)
    (hsome : ∀ k, k < rounds.length → (explored State.new (rounds.take (k + 1))).entries ≠ [])
    (hlen : nodes.length < rounds.length) : (init State.new rounds).2.2 ≠ none := by
  intro hrun
  rw [C86_init_running] at hrun
  have grow : ∀ k, k ≤ rounds.length → k ≤ (explored State.new (rounds.take k)).entries.length := by
    intro k
    induction k with
    | zero => intro _; exact Nat.zero_le _
    | succ k ih =>
      intro hk
      have h1 := ih (by omega)
      have h2 := hrun k (by omega)
      have h3 := hsome k (by omega)
      have h4 : 0 < (explored State.new (rounds.take (k + 1))).entries.length :=
        List.length_pos_iff.mpr h3
      unfold FewNew at h2
      omega
  have hb := grow rounds.length (Nat.le_refl _)
  rw [List.take_of_length_le (Nat.le_refl _)] at hb
  have hw := explored_within rounds (dom := fun i => i ∈ nodes) (within_new _) hf
  have := Verif.Query.nodup_subset_length hw.1 hw.2
  unfold State.ids at this
  rw [List.length_map] at this
  omega

/-- The promise that starting without any reachable peer is reported as an error ("No peers found")
is not kept: when nobody answers, the exploration goes on for ever. -/
theorem C86_no_peers_violated (rounds : List Round)
    (h : ∀ r ∈ rounds, ∀ e, (r.probe e).reply.pong = none) :
    (init State.new rounds).2.2 = none := by
  rw [C86_init_running]
  intro k hk
  rw [explored_nobody _ (fun r hr => h r ((List.take_sublist _ _).subset hr)),
    explored_nobody _ (fun r hr => h r ((List.take_sublist _ _).subset hr))]
  unfold FewNew
  simp [State.new]

/-- That error can only come up when everybody who was known has been given up within one round. -/
theorem C86_no_peers_error (s : State) (rounds : List Round)
    (h : (init s rounds).2.2 = some (.error .noPeersFound)) :
    ∃ k, k < rounds.length ∧ (explored s (rounds.take k)).entries ≠ [] ∧
      (explored s (rounds.take (k + 1))).entries = [] := by
  obtain ⟨k, h1, h2, h3, _, _, h6⟩ := C86_init_done s rounds _ h
  have he := h6.mp rfl
  refine ⟨k, h1, ?_, h2 ▸ he⟩
  intro hc
  unfold FewNew at h3
  rw [he, hc] at h3
  simp at h3

/-! ## Peers that are forgotten -/

/-- A known node without a scheduled check stays known, with the same record, radius and client type,
and is never pinged again, whatever happens, until a lookup comes across it. -/
theorem C86_forgotten {rounds : List Round} {actions : List Action} {s : State}
    {log : List Exchange} (h : life rounds actions = some (s, log)) {id : Id} {e : Entry}
    (he : s.get id = some e) (hd : s.deadline id = none) (more : List Action)
    (hm : ∀ a ∈ more, Unmentioned id a) {t : State} {log' : List Exchange}
    (hr : run s more = some (t, log')) :
    (∃ e', t.get id = some e' ∧ e'.enr = e.enr ∧ e'.peer.radius = e.peer.radius ∧
      e'.peer.clientType = e.peer.clientType) ∧ t.deadline id = none ∧
    ∀ x ∈ log', x.enr.id ≠ id := by
  have hl : Lost id (e.enr, e.peer.clientType, e.peer.radius, e.peer.livenessChecks) s := by
    refine ⟨⟨e, he, rfl⟩, hd, ?_⟩
    have hv := (inv_life h).view id
    rw [he] at hv
    cases hk : known id log with
    | none => rw [hk] at hv; simp at hv
    | some k =>
      rw [hk] at hv
      simp only [Option.map_some, Option.some.injEq, look, lookKnown, Prod.mk.injEq] at hv
      have := congrArg List.length hv.2.2.2
      simp only [List.length_map, List.length_take] at this
      simp only [this]
      omega
  obtain ⟨⟨⟨e', h1, h2⟩, h3, _⟩, h5⟩ := lost_run more hl hm hr
  simp only [Prod.mk.injEq] at h2
  exact ⟨⟨e', h1, h2.1, h2.2.2.1, h2.2.1⟩, h3, h5⟩

namespace CensusLifeEx

def a : Enr := ⟨1#256, 3, [7]⟩
def a2 : Enr := ⟨1#256, 5, [8]⟩
def b : Enr := ⟨2#256, 1, [9]⟩

/-- `a` answers with its capabilities, `b` does not answer. -/
def probe (t : Nat) (e : Enr) : Check :=
  if e.id = a.id then ⟨t, t + 10, ⟨some ⟨3, some (4, 1000)⟩, none⟩⟩
  else ⟨t, t + 10, ⟨none, none⟩⟩

def rounds : List Round :=
  [⟨[some [a, b], none], probe 100⟩, ⟨[some [a]], probe 200⟩]

/-- `a` answers the next ping with another extension. -/
def oddCheck : Check := ⟨400000, 400010, ⟨some ⟨3, none⟩, none⟩⟩

/-- `a` claims to have a newer record and sends one that is not. -/
def claim (t : Nat) : Enr → Check := fun _ =>
  ⟨t, t + 10, ⟨some ⟨9, some (4, 1000)⟩, some [b, a2]⟩⟩

end CensusLifeEx

open CensusLifeEx in
/-- The promise that a peer is checked every five minutes and dropped when it stops behaving is not
kept: a peer that answers one ping with something other than its capabilities is never checked again
by the schedule and stays a candidate for offers, with its old radius, until a lookup happens to find
it. -/
theorem C86_forgotten_violated :
    ∃ rounds actions s log id e, life rounds actions = some (s, log) ∧ s.get id = some e ∧
      e.peer.radius = 1000 ∧
      ∀ more, (∀ x ∈ more, Unmentioned id x) → ∀ t log', run s more = some (t, log') →
        (∃ e', t.get id = some e' ∧ e'.peer.radius = 1000) ∧ ∀ x ∈ log', x.enr.id ≠ id := by
  have h1 : ∃ s log e, life rounds [.check a.id oddCheck] = some (s, log) ∧ s.get a.id = some e ∧
      s.deadline a.id = none ∧ e.peer.radius = 1000 := by
    refine ⟨⟨[⟨[7], ⟨a.id, 3, 4, 1000, [⟨true, 110⟩], []⟩⟩], []⟩,
      [⟨a, probe 100 a⟩, ⟨b, probe 100 b⟩, ⟨a, oddCheck⟩], _, ?_, rfl, ?_, ?_⟩
    · decide +kernel
    · decide +kernel
    · decide +kernel
  obtain ⟨s, log, e, hl, he, hd, hr⟩ := h1
  refine ⟨rounds, [.check a.id oddCheck], s, log, a.id, e, hl, he, hr, ?_⟩
  intro more hm t log' hrun
  obtain ⟨⟨e', g1, g2, g3, g4⟩, _, g6⟩ := C86_forgotten hl he hd more hm hrun
  exact ⟨⟨e', g1, g3.trans hr⟩, g6⟩

open CensusLifeEx in
/-- The promise that the record kept is as new as the peer claims is not kept: whatever record with
its id the peer sends is taken. -/
theorem C86_claimed_record_violated :
    ∃ rounds s log x e, life rounds [] = some (s, log) ∧ x ∈ log ∧ s.get x.enr.id = some e ∧
      x.check.reply.pong = some ⟨9, some (4, 1000)⟩ ∧ e.enr.seq = 5 :=
  ⟨[⟨[some [a]], claim 100⟩, ⟨[], claim 200⟩],
    ⟨[⟨[8], ⟨a.id, 5, 4, 1000, [⟨true, 110⟩], []⟩⟩], [(a.id, 300110)]⟩,
    [⟨a, claim 100 a⟩], ⟨a, claim 100 a⟩, ⟨[8], ⟨a.id, 5, 4, 1000, [⟨true, 110⟩], []⟩⟩,
    by decide +kernel, by decide +kernel, by decide +kernel, by decide +kernel, by decide +kernel⟩

/-! ## The three subnetworks -/

/-- Calls about a subnetwork concern that subnetwork alone, and others are refused. -/
theorem C86_routing (c : Nets) (id : Id) (tr : OfferTrace) (now : Nat) (w : AdditiveWeight)
    (content : Option (Bool × Id)) :
    (c.select .beacon w content now = c.beacon.candidates w content now) ∧
    (c.select .legacyHistory w content now = c.legacyHistory.candidates w content now) ∧
    (c.select .state w content now = c.state.candidates w content now) ∧
    (∀ n, c.select (.other n) w content now = .error (.unsupported n) ∧
      c.recordOffer (.other n) id tr now = c) ∧
    (c.recordOffer .beacon id tr now =
      ⟨c.beacon.recordOffer id tr now, c.legacyHistory, c.state, c.initialized⟩) ∧
    (c.recordOffer .legacyHistory id tr now =
      ⟨c.beacon, c.legacyHistory.recordOffer id tr now, c.state, c.initialized⟩) ∧
    (c.recordOffer .state id tr now =
      ⟨c.beacon, c.legacyHistory, c.state.recordOffer id tr now, c.initialized⟩) :=
  ⟨rfl, rfl, rfl, fun _ => ⟨rfl, rfl⟩, rfl, rfl, rfl⟩

theorem init_ok_entries {s : State} {rounds : List Round}
    (h : (init s rounds).2.2 = some (.ok ())) : (init s rounds).1.entries ≠ [] := by
  obtain ⟨_, _, _, _, _, h5, _⟩ := C86_init_done s rounds _ h
  exact h5.mp rfl

/-- Starting the census succeeds only for a census that was not started before and supported
subnetworks, at least one. Every wanted subnetwork then has somebody to choose from (before the weights
are looked at), and the others are as they were. -/
theorem C86_start (c c' : Nets) (subnetworks : List Subnetwork) (r : Rounds)
    (h : c.init subnetworks r = (c', some (.ok ()))) :
    c.initialized = false ∧ c'.initialized = true ∧ subnetworks ≠ [] ∧
    (∀ n, Subnetwork.other n ∉ subnetworks) ∧
    (.beacon ∈ subnetworks → c'.beacon = (init c.beacon r.beacon).1 ∧ c'.beacon.entries ≠ []) ∧
    (.beacon ∉ subnetworks → c'.beacon = c.beacon) ∧
    (.legacyHistory ∈ subnetworks →
      c'.legacyHistory = (init c.legacyHistory r.legacyHistory).1 ∧ c'.legacyHistory.entries ≠ []) ∧
    (.legacyHistory ∉ subnetworks → c'.legacyHistory = c.legacyHistory) ∧
    (.state ∈ subnetworks → c'.state = (init c.state r.state).1 ∧ c'.state.entries ≠ []) ∧
    (.state ∉ subnetworks → c'.state = c.state) := by
  have wanted : ∀ (n : Subnetwork) (s : State) (rs : List Round),
      (initIf (subnetworks.contains n) s rs).2 = some (.ok ()) →
      (n ∈ subnetworks → (initIf (subnetworks.contains n) s rs).1 = (init s rs).1 ∧
        (initIf (subnetworks.contains n) s rs).1.entries ≠ []) ∧
      (n ∉ subnetworks → (initIf (subnetworks.contains n) s rs).1 = s) := by
    intro n s rs hok
    by_cases hn : n ∈ subnetworks
    · have hc : subnetworks.contains n = true := by simpa using hn
      unfold initIf at hok ⊢
      rw [hc] at hok ⊢
      exact ⟨fun _ => ⟨rfl, init_ok_entries hok⟩, fun h => absurd hn h⟩
    · have hc : subnetworks.contains n = false := by simpa using hn
      unfold initIf
      rw [hc]
      exact ⟨fun h => absurd h hn, fun _ => rfl⟩
  unfold Nets.init at h
  split at h
  · cases h
  · rename_i hi
    simp only at h
    split at h
    · cases h
    · rename_i hne
      split at h
      · cases h
      · rename_i hfu
        refine ⟨by simpa using hi, ?_⟩
        have hns := firstUnsupported_none.mp hfu
        have hne' : subnetworks ≠ [] := by
          intro e; rw [e] at hne; exact hne rfl
        unfold initNets at h
        simp only at h
        cases hb : (initIf (subnetworks.contains .beacon) c.beacon r.beacon).2 with
        | none => rw [hb] at h; cases h
        | some rb =>
          cases rb with
          | error e => rw [hb] at h; cases h
          | ok u =>
            rw [hb] at h
            simp only at h
            cases hh : (initIf (subnetworks.contains .legacyHistory) c.legacyHistory
              r.legacyHistory).2 with
            | none => rw [hh] at h; cases h
            | some rh =>
              cases rh with
              | error e => rw [hh] at h; cases h
              | ok v =>
                rw [hh] at h
                simp only [Prod.mk.injEq] at h
                obtain ⟨h1, h2⟩ := h
                subst h1
                have w1 := wanted .beacon c.beacon r.beacon hb
                have w2 := wanted .legacyHistory c.legacyHistory r.legacyHistory hh
                have w3 := wanted .state c.state r.state h2
                exact ⟨rfl, hne', hns, w1.1, w1.2, w2.1, w2.2, w3.1, w3.2⟩

/-- A census that was started once, successfully or not, refuses every later start: a failed start
cannot be repeated. -/
theorem C86_once (c : Nets) (subnetworks : List Subnetwork) (r : Rounds) :
    (c.init subnetworks r).1.initialized = true ∧
    ∀ again r', ((c.init subnetworks r).1.init again r').2 = some (.error .alreadyInitialized) := by
  have h : (c.init subnetworks r).1.initialized = true := by
    unfold Nets.init
    split
    · assumption
    · simp only
      split
      · rfl
      · split
        · rfl
        · unfold initNets
          simp only
          split
          · split <;> rfl
          · rfl
  refine ⟨h, ?_⟩
  intro again r'
  generalize (c.init subnetworks r).1 = d at h
  unfold Nets.init
  rw [if_pos h]

open CensusLifeEx in
/-- The promise that a census that could not be started may be started again is not kept: after an
attempt with a subnetwork that is not supported even a correct one is refused as already done,
although nobody is known. -/
theorem C86_retry_violated :
    ∃ r : Rounds, (Nets.new.init [.beacon] r).2 = some (.ok ()) ∧
      ((Nets.new.init [.other 7, .beacon] r).1.init [.beacon] r).2 =
        some (.error .alreadyInitialized) ∧
      ∀ w content now, (Nets.new.init [.other 7, .beacon] r).1.select .beacon w content now =
        .error .noPeers :=
  ⟨⟨rounds, [], []⟩, by decide +kernel, by decide +kernel, fun _ _ _ => rfl⟩

/-! ## Examples -/

namespace CensusLifeEx

/-- The hypotheses are met: `a` is found and checked, `b` does not answer; later `a` fails a check. -/
def failCheck : Check := ⟨400000, 400010, ⟨none, none⟩⟩

def endState : State :=
  ⟨[⟨[7], ⟨a.id, 3, 4, 1000, [⟨false, 400010⟩, ⟨true, 110⟩], []⟩⟩], [(a.id, 700010)]⟩
def endLog : List Exchange := [⟨a, probe 100 a⟩, ⟨b, probe 100 b⟩, ⟨a, failCheck⟩]

example : life rounds [.check a.id failCheck] = some (endState, endLog) := by decide +kernel

example : endState.get a.id ≠ none ∧ endState.get b.id = none ∧
    endState.deadline a.id = some (400010 + fiveMinutes) := by decide +kernel

example : (known a.id endLog).isSome = true ∧ (known b.id endLog).isSome = false := by
  decide +kernel

example : NoOdd a.id endLog := by
  intro x hx _
  simp only [endLog, List.mem_cons, List.not_mem_nil, or_false] at hx
  rcases hx with rfl | rfl | rfl <;> (intro h; cases h)

example : endState.candidates AdditiveWeight.default (some (true, 5#256)) 400020 =
    .ok [⟨a.id, 3, 4, 1000, [⟨false, 400010⟩, ⟨true, 110⟩], []⟩] := by decide +kernel

/-- Too early: the check of `a` is not due yet. -/
example : (step endState (.check a.id ⟨700009, 700020, ⟨none, none⟩⟩)).isNone = true ∧
    (step endState (.check a.id ⟨700010, 700020, ⟨none, none⟩⟩)).isSome = true := by decide +kernel

/-- Ten failures in a row: `a` is dropped. -/
def failures : List Action :=
  (List.range 10).map (fun i => .check a.id ⟨(i + 1) * 400000, (i + 1) * 400000 + 10, ⟨none, none⟩⟩)

example : (life rounds failures).map (fun r => (r.1.get a.id).isSome) = some false ∧
    (life rounds (failures.take 9)).map (fun r => (r.1.get a.id).isSome) = some true := by
  decide +kernel

example : newest [some [a, b], none, some [a2]] = [b, a2] := by decide +kernel

/-- Two orders of the same checks. -/
example : (checkAll State.new (probe 100) [a, b]).1.get a.id =
    (checkAll State.new (probe 100) [b, a]).1.get a.id := by decide +kernel

/-- The exploration of a network of one node that answers. -/
example : (init State.new rounds).2.2 = some (.ok ()) ∧
    (init State.new (rounds.take 1)).2.2 = none := by decide +kernel

example : (∀ r ∈ rounds, ∀ l, some l ∈ r.found → ∀ e ∈ l, e.id ∈ [a.id, b.id]) ∧
    (∀ k, k < rounds.length → (explored State.new (rounds.take (k + 1))).entries ≠ []) := by
  constructor
  · intro r hr l hl e he
    simp only [rounds, List.mem_cons, List.not_mem_nil, or_false] at hr
    rcases hr with rfl | rfl
    · simp only [List.mem_cons, Option.some.injEq, List.not_mem_nil, or_false, reduceCtorEq] at hl
      subst hl
      simp only [List.mem_cons, List.not_mem_nil, or_false] at he
      rcases he with rfl | rfl <;> simp
    · simp only [List.mem_cons, Option.some.injEq, List.not_mem_nil, or_false] at hl
      subst hl
      simp only [List.mem_cons, List.not_mem_nil, or_false] at he
      subst he
      simp
  · decide +kernel

/-- After this exploration a check is scheduled, so the view does not start over; an empty view does. -/
example : (init State.new rounds).1.deadline a.id ≠ none ∧ (step (init State.new rounds).1 (.reinit [])).isSome = false ∧
    (step State.new (.reinit rounds)).isSome = true := by decide +kernel

/-- Nobody answers. -/
example : ∀ r ∈ [(⟨[some [a, b]], fun _ => ⟨1, 2, ⟨none, none⟩⟩⟩ : Round)],
    ∀ e, (r.probe e).reply.pong = none := by
  intro r hr e
  simp only [List.mem_singleton] at hr
  subst hr; rfl

example : (Nets.new.init [.legacyHistory] ⟨[], rounds, []⟩).2 = some (.ok ()) := by decide +kernel

end CensusLifeEx

end Verif.Props
