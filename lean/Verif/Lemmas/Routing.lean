import Verif.Props.RoutingSpec

namespace Verif.Routing
open Verif.Wire Verif.PingExt
open Verif.Ping (Node Env handleExt stepNode handleExt_enr)
open Verif.Props (Reports)

variable {E : Type}

/-- What one call of the library does to one entry, in the course of an event. -/
inductive Change (env : Env E) (localId : Id) (ev : Event E) (k : Id) : Option (Entry E) → Option (Entry E) → Prop
  | drift (a b : Option (Entry E)) (h : Drift a b) : Change env localId ev k a b
  | gone (a : Option (Entry E)) : Change env localId ev k a none
  | fresh (a : Option (Entry E)) (enr : E) (st : Status) (p : Bool) (hk : env.nodeId enr = k) (hl : k ≠ localId)
      (hc : st.connected = true → Active env k ev) (ha : a = none ∨ ev = .addEnr enr) :
      Change env localId ev k a (some ⟨newNode enr, st, p⟩)
  | status (e : Entry E) (st : Status) (p : Bool) (hc : st.connected = true → Active env k ev) :
      Change env localId ev k (some e) (some ⟨e.node, st, p⟩)
  | report (e : Entry E) (n : Node E) (p : Bool) (hn : n.enr = e.node.enr) (hr : Announces env k n.radius ev) :
      Change env localId ev k (some e) (some ⟨n, e.status, p⟩)
  | newer (e : Entry E) (enr : E) (p : Bool) (hk : env.nodeId enr = k) (hs : env.seq e.node.enr < env.seq enr) :
      Change env localId ev k (some e) (some ⟨{ e.node with enr := enr }, e.status, p⟩)

/-- The states of an event: a chain of changes. -/
inductive Path (env : Env E) (localId : Id) (ev : Event E) (s : State E) : State E → Prop
  | refl (s' : State E) (ht : s'.table = s.table) (hp : s'.past = s.past) : Path env localId ev s s'
  | step (s1 s2 : State E) (h : Path env localId ev s s1)
      (hc : ∀ k, Change env localId ev k (s1.table k) (s2.table k)) (hp : s2.past = s1.table :: s1.past) :
      Path env localId ev s s2

variable {env : Env E} {localId : Id} {ev : Event E}

theorem Path.put {s : State E} {t : Table E} (h : ∀ k, Change env localId ev k (s.table k) (t k)) :
    Path env localId ev s (s.put t) :=
  .step s _ (.refl s rfl rfl) h rfl

theorem Path.same {s s1 s2 : State E} (h : Path env localId ev s s1) (ht : s2.table = s1.table)
    (hp : s2.past = s1.past) : Path env localId ev s s2 := by
  cases h with
  | refl _ ht' hp' => exact .refl _ (ht.trans ht') (hp.trans hp')
  | step s0 _ h0 hc hp0 => exact .step s0 _ h0 (by rw [ht]; exact hc) (hp.trans hp0)

theorem Path.of_eq {s s1 s2 : State E} (h : Path env localId ev s1 s2) (ht : s1.table = s.table)
    (hp : s1.past = s.past) : Path env localId ev s s2 := by
  induction h with
  | refl s' ht' hp' => exact .refl _ (ht'.trans ht) (hp'.trans hp)
  | step s0 s2 _ hc hp0 ih => exact .step s0 _ ih hc hp0

theorem Path.trans {s s1 s2 : State E} (h : Path env localId ev s s1) (h' : Path env localId ev s1 s2) :
    Path env localId ev s s2 := by
  induction h' with
  | refl s' ht hp => exact h.same ht hp
  | step s0 s2 _ hc hp ih => exact .step s0 s2 ih hc hp

theorem entry_path {lib : Lib E} (hl : Lawful env localId lib) (s : State E) (k : Id) :
    Path env localId ev s (entry lib s k).2 := .put fun j => .drift _ _ (hl.settle s.table k j)

theorem entry_fst (lib : Lib E) (s : State E) (k : Id) : (entry lib s k).1 = (entry lib s k).2.table k := rfl

theorem connectNode_path {lib : Lib E} (hl : Lawful env localId lib) (s : State E) (n : Node E) (incoming : Bool)
    (ha : Active env (env.nodeId n.enr) ev)
    (hn : (s.table (env.nodeId n.enr) = none ∧ n = newNode n.enr) ∨
      ∃ e, s.table (env.nodeId n.enr) = some e ∧ n = e.node) :
    Path env localId ev s (connectNode env lib s n incoming) := by
  have hp : Path env localId ev s (s.put (lib.insert s.table n ⟨true, incoming⟩).2) := by
    refine .put fun j => ?_
    by_cases hj : j = env.nodeId n.enr
    · have h1 := hl.insertHere s.table n ⟨true, incoming⟩
      have h2 := hl.insertSelf s.table n ⟨true, incoming⟩
      subst hj
      generalize (lib.insert s.table n ⟨true, incoming⟩).1 = r at h1 h2
      have fresh : ∀ p, r ≠ .failed → Change env localId ev (env.nodeId n.enr) (s.table (env.nodeId n.enr))
          (some ⟨n, ⟨true, incoming⟩, p⟩) := by
        intro p hr
        rcases hn with ⟨h3, h4⟩ | ⟨e, h3, h4⟩
        · rw [h3, h4]
          exact .fresh none n.enr _ p rfl (fun h => hr (h2 h)) (fun _ => ha) (.inl rfl)
        · rw [h3, h4]
          exact .status e _ p fun _ => h4 ▸ ha
      generalize hnew : (lib.insert s.table n ⟨true, incoming⟩).2 (env.nodeId n.enr) = new at h1
      generalize hold : s.table (env.nodeId n.enr) = old at h1 fresh
      cases h1 with
      | inserted _ h => exact fresh _ (by simp)
      | pending _ d h => exact fresh _ (by simp)
      | statusUpdated e => exact fresh _ (by simp)
      | updated e => exact fresh _ (by simp)
      | valueUpdated e h => exact fresh _ (by simp)
      | updatedPending e => exact fresh _ (by simp)
      | removed _ => exact .gone _
      | refused _ h => exact .drift _ _ (.same _)
    · exact .drift _ _ (hl.insertOthers _ _ _ _ hj)
  unfold connectNode
  simp only
  split
  · exact hp.same rfl rfl
  · next d _ =>
    have h1 := entry_path (ev := ev) hl (s.put (lib.insert s.table n ⟨true, incoming⟩).2) d
    split
    · next h =>
      rw [h] at h1
      split
      · exact hp.trans h1
      · exact (hp.trans h1).same rfl rfl
    · next h => rw [h] at h1; exact hp.trans h1
  · split
    · exact hp.same rfl rfl
    · exact hp
  · split
    · exact hp.same rfl rfl
    · exact hp
  · exact hp
  · exact hp
  · exact hp.same rfl rfl

theorem updateState_path {lib : Lib E} (hl : Lawful env localId lib) (s : State E) (k : Id) (c : Bool)
    (hc : c = true → Active env k ev) : Path env localId ev s (updateState lib s k c).2 := by
  refine .put fun j => ?_
  by_cases hj : j = k
  · subst hj
    cases hr : (lib.updateStatus s.table j c).1 with
    | true => rw [hl.statusFailed _ _ _ hr]; exact .gone _
    | false =>
      obtain ⟨e, p, h1, h2, _⟩ := hl.statusDone _ _ _ hr
      rw [h1, h2]
      exact .status e _ p hc
  · exact .drift _ _ (hl.statusOthers _ _ _ _ hj)

theorem stayConnected_path {lib : Lib E} (hl : Lawful env localId lib) (s : State E) (k : Id)
    (ha : Active env k ev) : Path env localId ev s (stayConnected lib s k) := by
  have h := updateState_path hl s k true fun _ => ha
  unfold stayConnected
  split
  · next hu => rw [hu] at h; exact h.same rfl rfl
  · next hu => rw [hu] at h; exact h

theorem registerActivity_path {lib : Lib E} (hl : Lawful env localId lib) (s : State E) (k : Id) (cached : Option E)
    (hcached : ∀ enr, cached = some enr → env.nodeId enr = k) (ha : Active env k ev) :
    Path env localId ev s (registerActivity env lib s k cached) := by
  have h := entry_path (ev := ev) hl s k
  have h1 := entry_fst lib s k
  unfold registerActivity
  split
  · next hu => rw [hu] at h; exact h.trans (stayConnected_path hl _ k ha)
  · next s1 hu =>
    rw [hu] at h h1
    cases cached with
    | none => exact h
    | some enr =>
      have he := hcached enr rfl
      refine h.trans (connectNode_path hl s1 (newNode enr) true ?_ (.inl ⟨?_, rfl⟩))
      · simp only [newNode]; rw [he]; exact ha
      · simp only [newNode]; rw [he]; exact h1.symm

theorem handled_reports {m : PingBody} {x : Ext} {n n' : Node E}
    (hd : decodeExt env.utf8 m.payloadType m.payload = some x) (hs : x.type ∈ env.supported)
    (hh : handleExt x n = some n') : Reports env m n'.radius := by
  obtain ⟨ht, hv, hp⟩ := decodeExt_spec hd
  refine ⟨x, hv, ht.symm, hp.symm, hs, ?_⟩
  cases x with
  | capabilities i r c =>
    simp only [handleExt, Ping.handleCapabilities] at hh
    split at hh
    · cases hh; rfl
    · cases hh
  | basicRadius r =>
    simp only [handleExt, Ping.handleBasicRadius] at hh
    split at hh
    · cases hh; rfl
    · cases hh
  | historyRadius r h =>
    simp only [handleExt, Ping.handleHistoryRadius] at hh
    split at hh
    · cases hh; rfl
    · cases hh
  | error c t => cases hh

/-- Every entry is under the id of its record. -/
def Keyed (env : Env E) (localId : Id) (t : Table E) : Prop :=
  ∀ k e, t k = some e → env.nodeId e.node.enr = k ∧ k ≠ localId

theorem Change.keyed {k : Id} {a b : Option (Entry E)} (h : Change env localId ev k a b)
    (ha : ∀ e, a = some e → env.nodeId e.node.enr = k ∧ k ≠ localId) :
    ∀ e, b = some e → env.nodeId e.node.enr = k ∧ k ≠ localId := by
  intro e' he'
  cases h with
  | drift _ _ hd =>
    cases hd with
    | same _ => exact ha _ he'
    | left e _ => cases he'
    | applied e => cases he'; exact ha e rfl
  | gone _ => cases he'
  | fresh _ enr st p hk hl hc ha => cases he'; exact ⟨hk, hl⟩
  | status e st p hc => cases he'; exact ha e rfl
  | report e n p hn hr => cases he'; simp only [hn]; exact ha e rfl
  | newer e enr p hk hs => cases he'; exact ⟨hk, (ha e rfl).2⟩

theorem Path.keyed {s s' : State E} (h : Path env localId ev s s') (hk : Keyed env localId s.table) :
    Keyed env localId s'.table := by
  induction h with
  | refl s' ht hp => rw [ht]; exact hk
  | step s1 s2 _ hc _ ih => exact fun k => (hc k).keyed (ih k)

theorem processPing_path {lib : Lib E} (hl : Lawful env localId lib) (s : State E) (k : Id) (m : PingBody)
    (hk : Keyed env localId s.table) (ha : ∀ r, Reports env m r → Announces env k r ev) :
    Path env localId ev s (processPing env lib s k m) := by
  have h := entry_path (ev := ev) hl s k
  have h1 := entry_fst lib s k
  unfold processPing
  split
  · next hu => rw [hu] at h; exact h
  · next e s1 hu =>
    rw [hu] at h h1
    simp only at h h1
    have hs1 : Path env localId ev s (if env.seq e.node.enr < m.enrSeq.toNat then s1.send (.findNodes0 e.node.enr) else s1) := by
      split
      · exact h.same rfl rfl
      · exact h
    have ht : (if env.seq e.node.enr < m.enrSeq.toNat then s1.send (.findNodes0 e.node.enr) else s1).table = s1.table := by
      split <;> rfl
    generalize (if env.seq e.node.enr < m.enrSeq.toNat then s1.send (.findNodes0 e.node.enr) else s1) = s2 at hs1 ht
    simp only
    split
    · exact hs1
    · next x hd =>
      split
      · next hsup =>
        split
        · next n hh =>
          have hne := handleExt_enr hh
          have hid : env.nodeId n.enr = k := by rw [hne]; exact (h.keyed hk k e h1.symm).1
          refine hs1.trans (.put fun j => ?_)
          by_cases hj : j = k
          · subst hj
            cases hr : (lib.update s2.table n).1 with
            | true =>
              have := (hl.updateFailed _ _ hr).1
              rw [hid] at this
              rw [this]; exact .gone _
            | false =>
              obtain ⟨e', p, h2, h3, _⟩ := hl.updateDone _ _ hr
              rw [hid] at h2 h3
              rw [h3, h2]
              rw [ht, ← h1] at h2
              cases h2
              exact .report e n p hne (ha _ (handled_reports hd hsup hh))
          · exact .drift _ _ (hl.updateOthers _ _ _ (by rw [hid]; exact hj))
        · exact hs1
      · exact hs1

theorem discoverOne_path {lib : Lib E} (hl : Lawful env localId lib) (a : State E × List Id × List Id) (enr : E) :
    Path env localId ev a.1 (discoverOne env lib a enr).1 := by
  have h := entry_path (ev := ev) hl a.1 (env.nodeId enr)
  have h1 := entry_fst lib a.1 (env.nodeId enr)
  unfold discoverOne
  split
  · next e s hu =>
    rw [hu] at h h1
    simp only at h h1
    split
    · next hs =>
      simp only
      refine h.trans (.put fun j => ?_)
      by_cases hj : j = env.nodeId enr
      · subst hj
        cases hr : (lib.update s.table { e.node with enr := enr }).1 with
        | true => rw [(hl.updateFailed _ _ hr).1]; exact .gone _
        | false =>
          obtain ⟨e', p, h2, h3, _⟩ := hl.updateDone _ _ hr
          simp only at h2 h3
          rw [h3, h2]
          rw [← h1] at h2
          cases h2
          exact .newer e enr p rfl hs
      · exact .drift _ _ (hl.updateOthers _ _ _ hj)
    · exact h
  · next s hu =>
    rw [hu] at h h1
    simp only at h h1 ⊢
    refine h.trans (.put fun j => ?_)
    by_cases hj : j = env.nodeId enr
    · subst hj
      have h2 := hl.insertHere s.table (newNode enr) ⟨false, false⟩
      have h3 := hl.insertSelf s.table (newNode enr) ⟨false, false⟩
      simp only [newNode] at h2 h3
      rw [← h1] at h2 ⊢
      generalize hnew : (lib.insert s.table ⟨enr, maxRadius, none, none⟩ ⟨false, false⟩).2 (env.nodeId enr) = new at h2
      generalize hr : (lib.insert s.table ⟨enr, maxRadius, none, none⟩ ⟨false, false⟩).1 = r at h2 h3
      have hnew' : (lib.insert s.table (newNode enr) ⟨false, false⟩).2 (env.nodeId enr) = new := hnew
      rw [hnew']
      have fresh : ∀ p, r ≠ .failed → Change env localId ev (env.nodeId enr) none (some ⟨newNode enr, ⟨false, false⟩, p⟩) :=
        fun p hf => .fresh none enr _ p rfl (fun h => hf (h3 h)) (by simp) (.inl rfl)
      cases h2 with
      | inserted _ h => exact fresh _ (by simp)
      | pending _ d h => exact fresh _ (by simp)
      | removed _ => exact .gone _
      | refused _ h => exact .drift _ _ (.same _)
    · exact .drift _ _ (hl.insertOthers _ _ _ _ hj)

theorem discover_path {lib : Lib E} (hl : Lawful env localId lib) : ∀ (enrs : List E) (a : State E × List Id × List Id),
    Path env localId ev a.1 (enrs.foldl (discoverOne env lib) a).1
  | [], a => .refl _ rfl rfl
  | enr :: enrs, a => (discoverOne_path hl a enr).trans (discover_path hl enrs _)

theorem enqueue_all (ks : List Id) : ∀ s : State E, (ks.foldl State.enqueue s).table = s.table ∧
    (ks.foldl State.enqueue s).past = s.past ∧ ∀ k, k ∈ (ks.foldl State.enqueue s).queue ↔ k ∈ ks ∨ k ∈ s.queue := by
  induction ks with
  | nil => intro s; simp
  | cons j ks ih =>
    intro s
    obtain ⟨h1, h2, h3⟩ := ih (s.enqueue j)
    refine ⟨h1, h2, fun k => ?_⟩
    rw [List.foldl_cons, h3]
    simp only [State.enqueue, List.mem_cons]
    constructor
    · rintro (h | h | h) <;> simp [h]
    · rintro ((h | h) | h) <;> simp [h]

theorem dequeue_all (ks : List Id) : ∀ s : State E, (ks.foldl State.dequeue s).table = s.table ∧
    (ks.foldl State.dequeue s).past = s.past ∧ ∀ k, k ∈ (ks.foldl State.dequeue s).queue ↔ k ∉ ks ∧ k ∈ s.queue := by
  induction ks with
  | nil => intro s; simp
  | cons j ks ih =>
    intro s
    obtain ⟨h1, h2, h3⟩ := ih (s.dequeue j)
    refine ⟨h1, h2, fun k => ?_⟩
    rw [List.foldl_cons, h3]
    simp only [State.dequeue, List.mem_cons, List.mem_filter, decide_eq_true_eq, not_or]
    constructor
    · rintro ⟨h, h', h''⟩; exact ⟨⟨h'', h⟩, h'⟩
    · rintro ⟨⟨h'', h⟩, h'⟩; exact ⟨h, h', h''⟩

theorem processDiscovered_path {lib : Lib E} (hl : Lawful env localId lib) (s : State E) (enrs : List E) :
    Path env localId ev s (processDiscovered env lib localId s enrs) := by
  unfold processDiscovered
  simp only
  generalize (enrs.filter fun e => env.nodeId e ≠ localId) = l
  have h := discover_path (ev := ev) hl l (s, [], [])
  generalize l.foldl (discoverOne env lib) (s, [], []) = r at h
  have h1 := enqueue_all r.2.1 r.1
  have h2 := dequeue_all r.2.2 (r.2.1.foldl State.enqueue r.1)
  exact h.same (h2.1.trans h1.1) (h2.2.1.trans h1.2.1)

theorem processAnswer_path {lib : Lib E} (hl : Lawful env localId lib) (s : State E) (source : E)
    (hk : Keyed env localId s.table) (ha : Active env (env.nodeId source) ev) :
    Path env localId ev s (processAnswer env lib s source) := by
  have h := entry_path (ev := ev) hl s (env.nodeId source)
  have h1 := entry_fst lib s (env.nodeId source)
  unfold processAnswer
  split
  · next e s1 hu =>
    rw [hu] at h h1
    simp only at h h1
    split
    · exact h.trans (stayConnected_path hl _ _ ha)
    · have hid := (h.keyed hk _ e h1.symm).1
      exact h.trans (connectNode_path hl s1 e.node _ (by rw [hid]; exact ha) (.inr ⟨e, by rw [hid]; exact h1.symm, rfl⟩))
  · next s1 hu =>
    rw [hu] at h h1
    exact h.trans (connectNode_path hl s1 (newNode source) _ ha (.inl ⟨h1.symm, rfl⟩))

theorem step_path {lib : Lib E} (hl : Lawful env localId lib) (s : State E) (ev : Event E)
    (hk : Keyed env localId s.table) (hc : ev.Consistent env) : Path env localId ev s (step env localId lib s ev) := by
  cases ev with
  | request source cached ping =>
    have hcached : ∀ enr, cached = some enr → env.nodeId enr = source := by
      intro enr he; subst he; exact hc
    have h := registerActivity_path (ev := .request source cached ping) hl s source cached hcached rfl
    cases ping with
    | none => exact h
    | some m => exact h.trans (processPing_path hl _ source m (h.keyed hk) fun r hr => ⟨rfl, hr⟩)
  | response source body =>
    have h := processAnswer_path (ev := .response source body) hl s source hk rfl
    cases body with
    | pong m => exact h.trans (processPing_path hl _ _ m (h.keyed hk) fun r hr => ⟨rfl, hr⟩)
    | records enrs => exact h.trans (processDiscovered_path hl _ enrs)
    | other => exact h
  | failure destination =>
    exact (updateState_path hl s (env.nodeId destination) false (by simp)).same rfl rfl
  | expired k =>
    simp only [step, pingNext]
    split
    · have h := entry_path (ev := .expired k) hl (s.dequeue k) k
      have h' : Path env localId (.expired k) s (entry lib (s.dequeue k) k).2 := h.of_eq rfl rfl
      split
      · next hu =>
        rw [hu] at h'
        split
        · exact h'
        · exact h'.same rfl rfl
      · next hu => rw [hu] at h'; exact h'
    · exact .refl _ rfl rfl
  | addEnr enr =>
    refine .put fun j => ?_
    by_cases hj : j = env.nodeId enr
    · subst hj
      have h2 := hl.insertHere s.table (newNode enr) ⟨true, true⟩
      have h3 := hl.insertSelf s.table (newNode enr) ⟨true, true⟩
      have hid : env.nodeId (newNode enr).enr = env.nodeId enr := rfl
      rw [hid] at h2 h3
      generalize (lib.insert s.table (newNode enr) ⟨true, true⟩).2 (env.nodeId enr) = new at h2
      generalize (lib.insert s.table (newNode enr) ⟨true, true⟩).1 = r at h2 h3
      generalize s.table (env.nodeId enr) = old at h2
      have fresh : ∀ p, r ≠ .failed → Change env localId (.addEnr enr) (env.nodeId enr) old
          (some ⟨newNode enr, ⟨true, true⟩, p⟩) :=
        fun p hf => .fresh old enr _ p rfl (fun h => hf (h3 h)) (fun _ => rfl) (.inr rfl)
      cases h2 with
      | inserted _ h => exact fresh _ (by simp)
      | pending _ d h => exact fresh _ (by simp)
      | statusUpdated e => exact fresh _ (by simp)
      | updated e => exact fresh _ (by simp)
      | valueUpdated e h => exact fresh _ (by simp)
      | updatedPending e => exact fresh _ (by simp)
      | removed _ => exact .gone _
      | refused _ h => exact .drift _ _ (.same _)
    · exact .drift _ _ (hl.insertOthers _ _ _ _ hj)
  | deleteEnr k =>
    refine .put fun j => ?_
    by_cases hj : j = k
    · subst hj
      rcases hl.removeHere s.table j with h | ⟨-, -, -, h⟩
      · rw [h]; exact .gone _
      · exact .drift _ _ h
    · exact .drift _ _ (hl.removeOthers _ _ _ hj)
  | read k => exact entry_path hl s k

/-! ## Connection status -/

theorem Path.connected {s s' : State E} (h : Path env localId ev s s') {k : Id} {e' : Entry E}
    (he : s'.table k = some e') (hc : e'.status.connected = true) :
    Active env k ev ∨ ∃ e, s.table k = some e ∧ e.status.connected = true := by
  induction h generalizing e' with
  | refl s' ht hp => rw [ht] at he; exact .inr ⟨e', he, hc⟩
  | step s1 s2 _ hch _ ih =>
    have hk := hch k
    rw [he] at hk
    generalize hold : s1.table k = old at hk
    cases hk with
    | drift _ _ hd =>
      cases hd with
      | same _ => exact ih hold hc
      | applied e => exact ih hold hc
    | fresh _ enr st p hk hl hc' ha => exact .inl (hc' hc)
    | status e st p hc' => exact .inl (hc' hc)
    | report e n p hn hr => exact ih hold hc
    | newer e enr p hk hs => exact ih hold hc

theorem failure_disconnects {lib : Lib E} (hl : Lawful env localId lib) (s : State E) (k : Id) (e : Entry E)
    (he : (processFailure lib s k).table k = some e) : e.status.connected = false := by
  have he' : (lib.updateStatus s.table k false).2 k = some e := he
  cases hr : (lib.updateStatus s.table k false).1 with
  | true => rw [hl.statusFailed _ _ _ hr] at he'; cases he'
  | false =>
    obtain ⟨e0, p, _, h2, _⟩ := hl.statusDone _ _ _ hr
    rw [h2] at he'
    cases he'; rfl

theorem Drift.status {a b : Option (Entry E)} (h : Drift a b) {e : Entry E} (he : b = some e) :
    ∃ e0, a = some e0 ∧ e.status = e0.status ∧ e.node = e0.node := by
  cases h with
  | same _ => exact ⟨e, he, rfl, rfl⟩
  | left e0 _ => cases he
  | applied e0 => cases he; exact ⟨e0, rfl, rfl, rfl⟩

theorem entry_status {lib : Lib E} (hl : Lawful env localId lib) (s : State E) (j k : Id) (e : Entry E)
    (he : (entry lib s j).2.table k = some e) : ∃ e0, s.table k = some e0 ∧ e.status = e0.status ∧ e.node = e0.node :=
  (hl.settle s.table j k).status he

theorem update_status {lib : Lib E} (hl : Lawful env localId lib) (t : Table E) (n : Node E) (k : Id) (e : Entry E)
    (he : (lib.update t n).2 k = some e) : ∃ e0, t k = some e0 ∧ e.status = e0.status := by
  by_cases hk : k = env.nodeId n.enr
  · subst hk
    cases hr : (lib.update t n).1 with
    | true => rw [(hl.updateFailed _ _ hr).1] at he; cases he
    | false =>
      obtain ⟨e0, p, h1, h2, _⟩ := hl.updateDone _ _ hr
      rw [h2] at he
      cases he
      exact ⟨e0, h1, rfl⟩
  · obtain ⟨e0, h1, h2, _⟩ := (hl.updateOthers t n k hk).status he
    exact ⟨e0, h1, h2⟩

theorem processPing_status {lib : Lib E} (hl : Lawful env localId lib) (s : State E) (j k : Id) (m : PingBody)
    (e : Entry E) (he : (processPing env lib s j m).table k = some e) :
    ∃ e0, s.table k = some e0 ∧ e.status = e0.status := by
  have h := entry_status hl s j k
  have weak : ∀ e1, (entry lib s j).2.table k = some e1 → ∃ e0, s.table k = some e0 ∧ e1.status = e0.status :=
    fun e1 h1 => (h e1 h1).imp fun _ h2 => ⟨h2.1, h2.2.1⟩
  unfold processPing at he
  split at he
  · next hu => rw [hu] at weak; exact weak e he
  · next e1 s1 hu =>
    rw [hu] at weak
    have ht : (if env.seq e1.node.enr < m.enrSeq.toNat then s1.send (.findNodes0 e1.node.enr) else s1).table = s1.table := by
      split <;> rfl
    generalize (if env.seq e1.node.enr < m.enrSeq.toNat then s1.send (.findNodes0 e1.node.enr) else s1) = s2 at he ht
    simp only at he weak
    rw [← ht] at weak
    split at he
    · exact weak e he
    · split at he
      · split at he
        · next n _ =>
          obtain ⟨e2, h1, h2⟩ := update_status hl s2.table n k e he
          obtain ⟨e0, h3, h4⟩ := weak e2 h1
          exact ⟨e0, h3, h2.trans h4⟩
        · exact weak e he
      · exact weak e he

theorem discoverOne_status {lib : Lib E} (hl : Lawful env localId lib) (a : State E × List Id × List Id) (enr : E) (k : Id)
    (hk : env.nodeId enr ≠ k) (e : Entry E) (he : (discoverOne env lib a enr).1.table k = some e) :
    ∃ e0, a.1.table k = some e0 ∧ e.status = e0.status := by
  have h := entry_status hl a.1 (env.nodeId enr) k
  unfold discoverOne at he
  split at he
  · next e1 s1 hu =>
    rw [hu] at h
    split at he
    · obtain ⟨e2, h1, h2⟩ := update_status hl s1.table _ k e he
      obtain ⟨e0, h3, h4, _⟩ := h e2 h1
      exact ⟨e0, h3, h2.trans h4⟩
    · obtain ⟨e0, h3, h4, _⟩ := h e he
      exact ⟨e0, h3, h4⟩
  · next s1 hu =>
    rw [hu] at h
    obtain ⟨e2, h1, h2, _⟩ := (hl.insertOthers s1.table (newNode enr) ⟨false, false⟩ k (Ne.symm hk)).status he
    obtain ⟨e0, h3, h4, _⟩ := h e2 h1
    exact ⟨e0, h3, h2.trans h4⟩

theorem discover_status {lib : Lib E} (hl : Lawful env localId lib) (k : Id) :
    ∀ (enrs : List E) (a : State E × List Id × List Id), (∀ r ∈ enrs, env.nodeId r ≠ k) → ∀ e,
      (enrs.foldl (discoverOne env lib) a).1.table k = some e → ∃ e0, a.1.table k = some e0 ∧ e.status = e0.status
  | [], a, _, e, he => ⟨e, he, rfl⟩
  | enr :: enrs, a, hk, e, he => by
    obtain ⟨e1, h1, h2⟩ := discover_status hl k enrs _ (fun r hr => hk r (.tail _ hr)) e he
    obtain ⟨e0, h3, h4⟩ := discoverOne_status hl a enr k (hk enr (.head _)) e1 h1
    exact ⟨e0, h3, h2.trans h4⟩

theorem processDiscovered_table {lib : Lib E} (s : State E) (enrs : List E) :
    (processDiscovered env lib localId s enrs).table =
      ((enrs.filter fun e => env.nodeId e ≠ localId).foldl (discoverOne env lib) (s, [], [])).1.table := by
  unfold processDiscovered
  simp only
  rw [(dequeue_all _ _).1, (enqueue_all _ _).1]

theorem Path.neverPending {s s' : State E} (h : Path env localId ev s s') {k : Id} (hn : NeverPending s' k) :
    NeverPending s k := by
  induction h with
  | refl s' ht hp => unfold NeverPending at hn; rw [ht, hp] at hn; exact hn
  | step s1 s2 _ _ hp ih =>
    refine ih fun t ht => hn t ?_
    rw [hp]
    exact .tail _ ht

theorem NeverPending.now {s : State E} {k : Id} (h : NeverPending s k) {e : Entry E} (he : s.table k = some e) :
    e.pending = false := h _ (.head _) e he

theorem NeverPending.before {s s' : State E} {k : Id} (h : NeverPending s' k) (hp : s'.past = s.table :: s.past)
    {e : Entry E} (he : s.table k = some e) : e.pending = false := by
  refine h s.table ?_ e he
  rw [hp]
  exact .tail _ (.head _)

/-- After an insertion of a connected node. -/
theorem insert_connected {lib : Lib E} (hl : Lawful env localId lib) (s : State E) (n : Node E) (incoming : Bool)
    (hn : ∀ e, s.table (env.nodeId n.enr) = some e → e.pending = false) (e : Entry E)
    (he : (lib.insert s.table n ⟨true, incoming⟩).2 (env.nodeId n.enr) = some e) : e.status.connected = true := by
  have h1 := hl.insertHere s.table n ⟨true, incoming⟩
  rw [he] at h1
  generalize hold : s.table (env.nodeId n.enr) = old at h1
  generalize (lib.insert s.table n ⟨true, incoming⟩).1 = r at h1
  cases h1 <;> try rfl
  next h => exact absurd (hn e hold) (by rw [h e rfl]; simp)

theorem connectNode_table {lib : Lib E} (s : State E) (n : Node E) (incoming : Bool) :
    (connectNode env lib s n incoming).table = (lib.insert s.table n ⟨true, incoming⟩).2 ∨
    ∃ d, (connectNode env lib s n incoming).table = lib.settle (lib.insert s.table n ⟨true, incoming⟩).2 d := by
  unfold connectNode
  simp only
  split
  · exact .inl rfl
  · next d _ =>
    split
    · next h =>
      have h2 : (entry lib (s.put (lib.insert s.table n ⟨true, incoming⟩).2) d).2.table =
        lib.settle (lib.insert s.table n ⟨true, incoming⟩).2 d := rfl
      rw [h] at h2
      split <;> exact .inr ⟨d, h2⟩
    · next h =>
      have h2 : (entry lib (s.put (lib.insert s.table n ⟨true, incoming⟩).2) d).2.table =
        lib.settle (lib.insert s.table n ⟨true, incoming⟩).2 d := rfl
      rw [h] at h2
      exact .inr ⟨d, h2⟩
  · split <;> exact .inl rfl
  · split <;> exact .inl rfl
  · exact .inl rfl
  · exact .inl rfl
  · exact .inl rfl

theorem connectNode_connected {lib : Lib E} (hl : Lawful env localId lib) (s : State E) (n : Node E) (incoming : Bool)
    (hn : ∀ e, s.table (env.nodeId n.enr) = some e → e.pending = false) (e : Entry E)
    (he : (connectNode env lib s n incoming).table (env.nodeId n.enr) = some e) : e.status.connected = true := by
  rcases connectNode_table (env := env) (lib := lib) s n incoming with h | ⟨d, h⟩
  · rw [h] at he; exact insert_connected hl s n incoming hn e he
  · rw [h] at he
    obtain ⟨e0, h1, h2, _⟩ := (hl.settle _ d _).status he
    rw [h2]
    exact insert_connected hl s n incoming hn e0 h1

theorem stayConnected_connected {lib : Lib E} (hl : Lawful env localId lib) (s : State E) (k : Id) (e : Entry E)
    (he : (stayConnected lib s k).table k = some e) : e.status.connected = true := by
  have he' : (lib.updateStatus s.table k true).2 k = some e := by
    unfold stayConnected at he
    have : (updateState lib s k true).2.table = (lib.updateStatus s.table k true).2 := rfl
    split at he <;> next hu => rw [hu] at this; rw [← this]; exact he
  cases hr : (lib.updateStatus s.table k true).1 with
  | true => rw [hl.statusFailed _ _ _ hr] at he'; cases he'
  | false =>
    obtain ⟨e0, p, _, h2, _⟩ := hl.statusDone _ _ _ hr
    rw [h2] at he'
    cases he'; rfl

/-! ## Radius -/

theorem Path.radius {s s' : State E} (h : Path env localId ev s s') {k : Id} {e' : Entry E}
    (he : s'.table k = some e') : e'.node.radius = maxRadius ∨ Announces env k e'.node.radius ev ∨
      ∃ e, s.table k = some e ∧ e.node.radius = e'.node.radius := by
  induction h generalizing e' with
  | refl s' ht hp => rw [ht] at he; exact .inr (.inr ⟨e', he, rfl⟩)
  | step s1 s2 _ hch _ ih =>
    have hk := hch k
    rw [he] at hk
    generalize hold : s1.table k = old at hk
    cases hk with
    | drift _ _ hd =>
      cases hd with
      | same _ => exact ih hold
      | applied e => exact ih (e' := e) hold
    | fresh _ enr st p hk hl hc' ha => exact .inl rfl
    | status e st p hc' => exact ih (e' := e) hold
    | report e n p hn hr => exact .inr (.inl hr)
    | newer e enr p hk hs => exact ih (e' := e) hold

theorem processPing_radius {lib : Lib E} (hl : Lawful env localId lib) (s : State E) (k : Id) (m : PingBody)
    (hk : Keyed env localId s.table) {r : Nat} (hr : Reports env m r) (e : Entry E)
    (he : (processPing env lib s k m).table k = some e) : e.node.radius = r := by
  have h1 := entry_fst lib s k
  have hkey := (entry_path (ev := .read k) hl s k).keyed hk
  unfold processPing at he
  split at he
  · next hu => rw [hu] at h1; simp only at he h1; rw [← h1] at he; cases he
  · next e1 s1 hu =>
    rw [hu] at h1 hkey
    simp only at h1 hkey
    have ht : (if env.seq e1.node.enr < m.enrSeq.toNat then s1.send (.findNodes0 e1.node.enr) else s1).table = s1.table := by
      split <;> rfl
    generalize (if env.seq e1.node.enr < m.enrSeq.toNat then s1.send (.findNodes0 e1.node.enr) else s1) = s2 at he ht
    have hs := Verif.Props.stepNode_reports hr e1.node
    simp only [stepNode] at hs
    simp only at he
    cases hd : decodeExt env.utf8 m.payloadType m.payload with
    | none =>
      rw [hd] at he hs
      simp only at he hs
      rw [ht, ← h1] at he
      cases he; exact hs
    | some x =>
      rw [hd] at he hs
      simp only at he hs
      split at he
      · next hsup =>
        rw [if_pos hsup] at hs
        cases hh : handleExt x e1.node with
        | none =>
          rw [hh] at he hs
          simp only [Option.getD] at he hs
          rw [ht, ← h1] at he
          cases he; exact hs
        | some n =>
          rw [hh] at he hs
          simp only [Option.getD] at he hs
          have hid : env.nodeId n.enr = k := by rw [handleExt_enr hh]; exact (hkey k e1 h1.symm).1
          have he' : (lib.update s2.table n).2 k = some e := he
          cases hu : (lib.update s2.table n).1 with
          | true =>
            have := (hl.updateFailed _ _ hu).1
            rw [hid, he'] at this
            cases this
          | false =>
            obtain ⟨e0, p, _, h2, _⟩ := hl.updateDone _ _ hu
            rw [hid, he'] at h2
            cases h2
            exact hs
      · next hsup =>
        rw [if_neg hsup] at hs
        rw [ht, ← h1] at he
        cases he; exact hs

/-! ## Sequence numbers -/

/-- From one table to a later one the record of a node only gets newer, unless the user gives it. -/
def Fresher (env : Env E) (given : E → Prop) (t t' : Table E) : Prop :=
  ∀ k e e', t k = some e → t' k = some e' →
    e'.node.enr = e.node.enr ∨ env.seq e.node.enr < env.seq e'.node.enr ∨ given e'.node.enr

inductive Chain (R : Table E → Table E → Prop) : Table E → List (Table E) → Prop
  | nil (t : Table E) : Chain R t []
  | cons (t' t : Table E) (past : List (Table E)) (h : R t t') (hp : Chain R t past) : Chain R t' (t :: past)

theorem Chain.mono {R R' : Table E → Table E → Prop} (hR : ∀ a b, R a b → R' a b) {t : Table E} {past : List (Table E)}
    (h : Chain R t past) : Chain R' t past := by
  induction h with
  | nil t => exact .nil t
  | cons t' t past h _ ih => exact .cons _ _ _ (hR _ _ h) ih

theorem Path.chain {s s' : State E} (h : Path env localId ev s s') {given : E → Prop}
    (hg : ∀ enr, ev = .addEnr enr → given enr) (hc : Chain (Fresher env given) s.table s.past) :
    Chain (Fresher env given) s'.table s'.past := by
  induction h with
  | refl s' ht hp => rw [ht, hp]; exact hc
  | step s1 s2 _ hch hp ih =>
    rw [hp]
    refine .cons _ _ _ (fun k e e' he he' => ?_) ih
    have hk := hch k
    rw [he, he'] at hk
    cases hk with
    | drift _ _ hd =>
      cases hd with
      | same _ => exact .inl rfl
      | applied e => exact .inl rfl
    | fresh _ enr st p hk hl hc' ha =>
      rcases ha with ha | ha
      · cases ha
      · exact .inr (.inr (hg _ ha))
    | status e st p hc' => exact .inl rfl
    | report e n p hn hr => exact .inl hn
    | newer e enr p hk hs => exact .inr (.inl hs)

theorem Chain.split {R : Table E → Table E → Prop} {t : Table E} {past : List (Table E)} (h : Chain R t past)
    (a b : List (Table E)) (t1 t2 : Table E) (he : t :: past = a ++ t2 :: t1 :: b) : R t1 t2 := by
  induction h generalizing a with
  | nil t =>
    cases a with
    | nil => cases he
    | cons x a => simp at he
  | cons t' t past h _ ih =>
    cases a with
    | nil => cases he; exact h
    | cons x a =>
      simp only [List.cons_append, List.cons.injEq] at he
      exact ih a he.2

/-! ## The ping queue -/

/-- A node of the table is in the queue. -/
def Queued (s : State E) (k : Id) : Prop := ∀ e, s.table k = some e → k ∈ s.queue

theorem Drift.present {a b : Option (Entry E)} (h : Drift a b) {e : Entry E} (he : b = some e) : ∃ e0, a = some e0 := by
  obtain ⟨e0, h, _⟩ := h.status he; exact ⟨e0, h⟩

theorem entry_queued {lib : Lib E} (hl : Lawful env localId lib) (s : State E) (j k : Id) (h : Queued s k) :
    Queued (entry lib s j).2 k := by
  intro e he
  obtain ⟨e0, h0⟩ := (hl.settle s.table j k).present he
  exact h e0 h0

theorem connectNode_queued {lib : Lib E} (hl : Lawful env localId lib) (s : State E) (n : Node E) (incoming : Bool) (k : Id)
    (h : Queued s k) (hn : NeverPending (connectNode env lib s n incoming) k) :
    Queued (connectNode env lib s n incoming) k := by
  have hold : ∀ e, s.table k = some e → e.pending = false := by
    intro e he
    refine hn s.table ?_ e he
    unfold connectNode
    simp only
    split
    · exact .tail _ (.head _)
    · next d _ =>
      have hq : (entry lib (s.put (lib.insert s.table n ⟨true, incoming⟩).2) d).2.past =
        (lib.insert s.table n ⟨true, incoming⟩).2 :: s.table :: s.past := rfl
      split
      · next hh =>
        rw [hh] at hq
        simp only at hq
        split
        · rw [hq]; exact .tail _ (.tail _ (.head _))
        · simp only [State.send]; rw [hq]; exact .tail _ (.tail _ (.head _))
      · next hh =>
        rw [hh] at hq
        simp only at hq
        rw [hq]; exact .tail _ (.tail _ (.head _))
    · split <;> exact .tail _ (.head _)
    · split <;> exact .tail _ (.head _)
    · exact .tail _ (.head _)
    · exact .tail _ (.head _)
    · exact .tail _ (.head _)
  by_cases hk : k = env.nodeId n.enr
  · subst hk
    have h1 := hl.insertHere s.table n ⟨true, incoming⟩
    intro e he
    unfold connectNode at he hn ⊢
    simp only at he hn ⊢
    generalize (lib.insert s.table n ⟨true, incoming⟩).1 = r at h1 he hn
    generalize hnew : (lib.insert s.table n ⟨true, incoming⟩).2 (env.nodeId n.enr) = new at h1
    generalize hold' : s.table (env.nodeId n.enr) = old at h1
    cases h1 with
    | inserted _ h' => exact .head _
    | pending _ d h' =>
      exfalso
      simp only at hn
      have hq : (entry lib (s.put (lib.insert s.table n ⟨true, incoming⟩).2) d).2.past =
        (lib.insert s.table n ⟨true, incoming⟩).2 :: s.table :: s.past := rfl
      have := fun hin => hn (lib.insert s.table n ⟨true, incoming⟩).2 hin _ hnew
      split at this
      · next hh =>
        rw [hh] at hq
        simp only at hq
        split at this
        · rw [hq] at this; exact absurd (this (.tail _ (.head _))) (by simp)
        · simp only [State.send] at this; rw [hq] at this; exact absurd (this (.tail _ (.head _))) (by simp)
      · next hh =>
        rw [hh] at hq
        simp only at hq
        rw [hq] at this; exact absurd (this (.tail _ (.head _))) (by simp)
    | statusUpdated e' =>
      have := h e' hold'
      simp only
      split
      · exact .tail _ this
      · exact this
    | updated e' =>
      have := h e' hold'
      simp only
      split
      · exact .tail _ this
      · exact this
    | valueUpdated e' h' => exact h e' hold'
    | updatedPending e' =>
      exfalso
      simp only at hn
      exact absurd (hn.now hnew) (by simp)
    | removed _ =>
      simp only [State.dequeue, State.put] at he
      rw [hnew] at he; cases he
    | refused _ h' =>
      simp only [State.dequeue, State.put] at he
      rw [hnew] at he
      subst he
      exact absurd (hold e hold') (by rw [h' e rfl]; simp)
  · have hq : ∀ x : Id, k ∈ s.queue → k ∈ (connectNode env lib s n incoming).queue := by
      intro _ hkq
      unfold connectNode
      simp only
      split
      · exact .tail _ hkq
      · next d _ =>
        have hq : (entry lib (s.put (lib.insert s.table n ⟨true, incoming⟩).2) d).2.queue = s.queue := rfl
        split
        · next hh => rw [hh] at hq; simp only at hq; split <;> (first | (rw [hq]; exact hkq) | (simp only [State.send]; rw [hq]; exact hkq))
        · next hh => rw [hh] at hq; simp only at hq; rw [hq]; exact hkq
      · split
        · exact .tail _ hkq
        · exact hkq
      · split
        · exact .tail _ hkq
        · exact hkq
      · exact hkq
      · exact hkq
      · simp only [State.dequeue, State.put, List.mem_filter, decide_eq_true_eq]
        exact ⟨hkq, hk⟩
    intro e he
    refine hq k ?_
    rcases connectNode_table (env := env) (lib := lib) s n incoming with h1 | ⟨d, h1⟩
    · rw [h1] at he
      obtain ⟨e0, h0⟩ := (hl.insertOthers s.table n ⟨true, incoming⟩ k hk).present he
      exact h e0 h0
    · rw [h1] at he
      obtain ⟨e1, h2⟩ := (hl.settle _ d k).present he
      obtain ⟨e0, h0⟩ := (hl.insertOthers s.table n ⟨true, incoming⟩ k hk).present h2
      exact h e0 h0

theorem stayConnected_queued {lib : Lib E} (hl : Lawful env localId lib) (s : State E) (j k : Id) (h : Queued s k) :
    Queued (stayConnected lib s j) k := by
  intro e he
  unfold stayConnected updateState at he ⊢
  simp only at he ⊢
  by_cases hk : k = j
  · subst hk
    cases hr : (lib.updateStatus s.table k true).1 with
    | true =>
      rw [hr] at he
      have he' : (lib.updateStatus s.table k true).2 k = some e := he
      rw [hl.statusFailed _ _ _ hr] at he'; cases he'
    | false =>
      obtain ⟨e0, p, h1, _⟩ := hl.statusDone _ _ _ hr
      exact h e0 h1
  · have he' : (lib.updateStatus s.table j true).2 k = some e := by
      cases hr : (lib.updateStatus s.table j true).1 <;> rw [hr] at he <;> exact he
    obtain ⟨e0, h0⟩ := (hl.statusOthers s.table j true k hk).present he'
    have hkq := h e0 h0
    cases hr : (lib.updateStatus s.table j true).1 with
    | true =>
      simp only [State.dequeue, State.put, List.mem_filter, decide_eq_true_eq]
      exact ⟨hkq, hk⟩
    | false => exact hkq

theorem registerActivity_queued {lib : Lib E} (hl : Lawful env localId lib) (s : State E) (j k : Id) (cached : Option E)
    (h : Queued s k) (hn : NeverPending (registerActivity env lib s j cached) k) :
    Queued (registerActivity env lib s j cached) k := by
  have h1 := entry_queued hl s j k h
  unfold registerActivity at hn ⊢
  split
  · next hu => rw [hu] at h1; exact stayConnected_queued hl _ j k h1
  · next s1 hu =>
    rw [hu] at h1 hn
    cases cached with
    | none => exact h1
    | some enr => exact connectNode_queued hl s1 _ _ k h1 hn

theorem processPing_queue {lib : Lib E} (s : State E) (j : Id) (m : PingBody) :
    (processPing env lib s j m).queue = s.queue := by
  have hq : (entry lib s j).2.queue = s.queue := rfl
  unfold processPing
  split
  · next hu => rw [hu] at hq; exact hq
  · next e1 s1 hu =>
    rw [hu] at hq
    have ht : (if env.seq e1.node.enr < m.enrSeq.toNat then s1.send (.findNodes0 e1.node.enr) else s1).queue = s1.queue := by
      split <;> rfl
    generalize (if env.seq e1.node.enr < m.enrSeq.toNat then s1.send (.findNodes0 e1.node.enr) else s1) = s2 at ht
    simp only at hq ⊢
    rw [← hq, ← ht]
    repeat' split
    all_goals rfl

theorem processPing_queued {lib : Lib E} (hl : Lawful env localId lib) (s : State E) (j k : Id) (m : PingBody)
    (h : Queued s k) : Queued (processPing env lib s j m) k := by
  intro e he
  rw [processPing_queue]
  obtain ⟨e0, h0, _⟩ := processPing_status hl s j k m e he
  exact h e0 h0

/-- The invariant while records are processed: nodes newly in the table are noted. -/
def Noted (a : State E × List Id × List Id) (k : Id) : Prop :=
  (∀ e, a.1.table k = some e → k ∈ a.1.queue ∨ k ∈ a.2.1) ∧ k ∉ a.2.2

theorem discoverOne_noted {lib : Lib E} (hl : Lawful env localId lib) (a : State E × List Id × List Id) (enr : E) (k : Id)
    (h : Noted a k) (hn : NeverPending (discoverOne env lib a enr).1 k) : Noted (discoverOne env lib a enr) k := by
  obtain ⟨ha, hr⟩ := h
  have hs : ∀ e, (entry lib a.1 (env.nodeId enr)).2.table k = some e → k ∈ a.1.queue ∨ k ∈ a.2.1 := by
    intro e he
    obtain ⟨e0, h0⟩ := (hl.settle a.1.table (env.nodeId enr) k).present he
    exact ha e0 h0
  have hq : (entry lib a.1 (env.nodeId enr)).2.queue = a.1.queue := rfl
  have h1 := entry_fst lib a.1 (env.nodeId enr)
  unfold discoverOne at hn ⊢
  split
  · next e1 s1 hu =>
    rw [hu] at hs hq h1 hn
    simp only at hs hq h1 hn
    split
    · next hlt =>
      simp only [if_pos hlt] at hn
      constructor
      · intro e he
        obtain ⟨e0, h0, _⟩ := update_status hl s1.table { e1.node with enr := enr } k e he
        have := hs e0 h0
        simp only [State.put]
        rw [hq]; exact this
      · simp only
        split
        · next hf =>
          intro hm
          rcases List.mem_append.mp hm with hm | hm
          · exact hr hm
          · have hk : k = env.nodeId enr := by simpa using hm
            subst hk
            have := (hl.updateFailed _ _ hf).2 e1 h1.symm
            have h2 := hn.before (s := s1) rfl h1.symm
            rw [this] at h2; cases h2
        · exact hr
    · exact ⟨fun e he => by simp only; rw [hq]; exact hs e he, hr⟩
  · next s1 hu =>
    rw [hu] at hs hq h1 hn
    simp only at hs hq h1 hn
    refine ⟨fun e he => ?_, hr⟩
    simp only [State.put] at he ⊢
    by_cases hk : k = env.nodeId enr
    · subst hk
      have h2 := hl.insertHere s1.table (newNode enr) ⟨false, false⟩
      have hid : env.nodeId (newNode enr).enr = env.nodeId enr := rfl
      rw [hid, ← h1, he] at h2
      have hp := hn.now (s := s1.put _) he
      generalize (lib.insert s1.table (newNode enr) ⟨false, false⟩).1 = r at h2
      cases h2 with
      | inserted _ h => simp
      | pending _ d h => cases hp
    · obtain ⟨e0, h0⟩ := (hl.insertOthers s1.table (newNode enr) ⟨false, false⟩ k hk).present he
      rw [hq]
      rcases hs e0 h0 with h | h
      · exact .inl h
      · refine .inr ?_
        split
        · exact List.mem_append_left _ h
        · exact h

theorem discover_noted {lib : Lib E} (hl : Lawful env localId lib) (k : Id) :
    ∀ (enrs : List E) (a : State E × List Id × List Id), Noted a k →
      NeverPending (enrs.foldl (discoverOne env lib) a).1 k → Noted (enrs.foldl (discoverOne env lib) a) k
  | [], _, h, _ => h
  | enr :: enrs, a, h, hn =>
    discover_noted hl k enrs _ (discoverOne_noted hl a enr k h
      ((discover_path (ev := .read 0) hl enrs (discoverOne env lib a enr)).neverPending hn)) hn

theorem processDiscovered_queued {lib : Lib E} (hl : Lawful env localId lib) (s : State E) (enrs : List E) (k : Id)
    (h : Queued s k) (hn : NeverPending (processDiscovered env lib localId s enrs) k) :
    Queued (processDiscovered env lib localId s enrs) k := by
  unfold processDiscovered at hn ⊢
  simp only at hn ⊢
  generalize (enrs.filter fun e => env.nodeId e ≠ localId) = l at hn
  have h1 := discover_noted hl k l (s, [], []) ⟨fun e he => .inl (h e he), by simp⟩
  generalize l.foldl (discoverOne env lib) (s, [], []) = r at h1 hn
  have h2 := enqueue_all r.2.1 r.1
  have h3 := dequeue_all r.2.2 (r.2.1.foldl State.enqueue r.1)
  unfold NeverPending at hn
  rw [h3.1, h3.2.1, h2.1, h2.2.1] at hn
  obtain ⟨h4, h5⟩ := h1 hn
  intro e he
  rw [h3.1, h2.1] at he
  rw [h3.2.2, h2.2.2]
  exact ⟨h5, (h4 e he).symm⟩

theorem processAnswer_queued {lib : Lib E} (hl : Lawful env localId lib) (s : State E) (source : E) (k : Id)
    (h : Queued s k) (hn : NeverPending (processAnswer env lib s source) k) :
    Queued (processAnswer env lib s source) k := by
  have h1 := entry_queued hl s (env.nodeId source) k h
  unfold processAnswer at hn ⊢
  split
  · next e s1 hu =>
    rw [hu] at h1 hn
    simp only at h1 hn
    split
    · exact stayConnected_queued hl _ _ k h1
    · next hc =>
      rw [if_neg hc] at hn
      exact connectNode_queued hl s1 _ _ k h1 hn
  · next s1 hu =>
    rw [hu] at h1 hn
    exact connectNode_queued hl s1 _ _ k h1 hn

theorem step_queued {lib : Lib E} (hl : Lawful env localId lib) (s : State E) (ev : Event E) (k : Id)
    (hk : Keyed env localId s.table) (hc : ev.Consistent env) (hf : ¬ Fails env k ev)
    (ha : ∀ enr, ev = .addEnr enr → env.nodeId enr ≠ k) (h : Queued s k)
    (hn : NeverPending (step env localId lib s ev) k) : Queued (step env localId lib s ev) k := by
  cases ev with
  | request source cached ping =>
    have hcached : ∀ enr, cached = some enr → env.nodeId enr = source := by
      intro enr he; subst he; exact hc
    have hp := registerActivity_path (ev := .request source cached none) hl s source cached hcached rfl
    cases ping with
    | none => exact registerActivity_queued hl s source k cached h hn
    | some m =>
      have hp2 := processPing_path (ev := .request source cached (some m)) hl (registerActivity env lib s source cached)
        source m (hp.keyed hk) fun r hr => ⟨rfl, hr⟩
      exact processPing_queued hl _ _ k m (registerActivity_queued hl s source k cached h (hp2.neverPending hn))
  | response source body =>
    have hp := processAnswer_path (ev := .response source .other) hl s source hk rfl
    cases body with
    | pong m =>
      have hp2 := processPing_path (ev := .response source (.pong m)) hl (processAnswer env lib s source)
        (env.nodeId source) m (hp.keyed hk) fun r hr => ⟨rfl, hr⟩
      exact processPing_queued hl _ _ k m (processAnswer_queued hl s source k h (hp2.neverPending hn))
    | records enrs =>
      have hp2 := processDiscovered_path (ev := .read 0) hl (processAnswer env lib s source) enrs
      exact processDiscovered_queued hl _ enrs k (processAnswer_queued hl s source k h (hp2.neverPending hn)) hn
    | other => exact processAnswer_queued hl s source k h hn
  | failure destination =>
    have hne : k ≠ env.nodeId destination := fun h => hf h.symm
    intro e he
    obtain ⟨e0, h0⟩ := (hl.statusOthers s.table (env.nodeId destination) false k hne).present he
    simp only [step, processFailure, updateState, State.dequeue, State.put, List.mem_filter, decide_eq_true_eq]
    exact ⟨h e0 h0, hne⟩
  | expired j =>
    have h1 : ∀ e, (entry lib (s.dequeue j) j).2.table k = some e → k ∈ s.queue := by
      intro e he
      obtain ⟨e0, h0⟩ := (hl.settle s.table j k).present he
      exact h e0 h0
    have hq : (entry lib (s.dequeue j) j).2.queue = s.queue.filter (· ≠ j) := rfl
    have hf := entry_fst lib (s.dequeue j) j
    simp only [step, pingNext] at hn ⊢
    split
    · next hjq =>
      rw [if_pos hjq] at hn
      split
      · next e1 s1 hu =>
        rw [hu] at h1 hq hf hn
        simp only at h1 hq hf hn
        by_cases hkj : k = j
        · subst hkj
          split
          · next hp =>
            rw [if_pos hp] at hn
            have := hn.now hf.symm
            rw [hp] at this; cases this
          · intro e _; exact .head _
        · intro e he
          have hm : k ∈ s1.queue := by
            rw [hq, List.mem_filter]
            refine ⟨h1 e ?_, by simpa using hkj⟩
            split at he <;> exact he
          split
          · exact hm
          · exact .tail _ hm
      · next s1 hu =>
        rw [hu] at h1 hq hf
        simp only at h1 hq hf
        intro e he
        by_cases hkj : k = j
        · subst hkj; rw [← hf] at he; cases he
        · rw [hq, List.mem_filter]; exact ⟨h1 e he, by simpa using hkj⟩
    · exact h
  | addEnr enr =>
    have hne := ha enr rfl
    intro e he
    obtain ⟨e0, h0⟩ := (hl.insertOthers s.table (newNode enr) ⟨true, true⟩ k (Ne.symm hne)).present he
    exact h e0 h0
  | deleteEnr j =>
    intro e he
    by_cases hkj : k = j
    · subst hkj
      have he' : lib.remove s.table k k = some e := he
      rcases hl.removeHere s.table k with h' | ⟨-, -, -, h'⟩
      · rw [h'] at he'; cases he'
      · obtain ⟨e0, h0⟩ := h'.present he'
        exact h e0 h0
    · obtain ⟨e0, h0⟩ := (hl.removeOthers s.table j k hkj).present he
      exact h e0 h0
  | read j => exact entry_queued hl s j k h

/-! ## The start -/

theorem boot_init {lib : Lib E} (hl : Lawful env localId lib) (enrs : List E) (s : State E)
    (h : Keyed env localId s.table ∧ s.past = [] ∧ (∀ k, Queued s k) ∧
      ∀ k e, s.table k = some e → e.status.connected = false ∧ e.node.radius = maxRadius) :
    Keyed env localId (enrs.foldl (fun s enr =>
      match lib.insert s.table (newNode enr) ⟨false, false⟩ with
      | (.failed, t) => { s with table := t }
      | (_, t) => { s with table := t, queue := env.nodeId enr :: s.queue }) s).table ∧
    (enrs.foldl (fun s enr =>
      match lib.insert s.table (newNode enr) ⟨false, false⟩ with
      | (.failed, t) => { s with table := t }
      | (_, t) => { s with table := t, queue := env.nodeId enr :: s.queue }) s).past = [] ∧
    (∀ k, Queued (enrs.foldl (fun s enr =>
      match lib.insert s.table (newNode enr) ⟨false, false⟩ with
      | (.failed, t) => { s with table := t }
      | (_, t) => { s with table := t, queue := env.nodeId enr :: s.queue }) s) k) ∧
    ∀ k e, (enrs.foldl (fun s enr =>
      match lib.insert s.table (newNode enr) ⟨false, false⟩ with
      | (.failed, t) => { s with table := t }
      | (_, t) => { s with table := t, queue := env.nodeId enr :: s.queue }) s).table k = some e →
      e.status.connected = false ∧ e.node.radius = maxRadius := by
  induction enrs generalizing s with
  | nil => exact h
  | cons enr enrs ih =>
    rw [List.foldl_cons]
    refine ih _ ?_
    obtain ⟨hk, hp, hq, hs⟩ := h
    have h1 := hl.insertHere s.table (newNode enr) ⟨false, false⟩
    have h2 := hl.insertOthers s.table (newNode enr) ⟨false, false⟩
    have h3 := hl.insertSelf s.table (newNode enr) ⟨false, false⟩
    have hid : env.nodeId (newNode enr).enr = env.nodeId enr := rfl
    rw [hid] at h1 h2 h3
    generalize lib.insert s.table (newNode enr) ⟨false, false⟩ = r at h1 h2 h3
    obtain ⟨res, t⟩ := r
    simp only at h1 h2 h3
    have facts : Keyed env localId t ∧ (∀ k e, t k = some e → e.status.connected = false ∧ e.node.radius = maxRadius) ∧
        ∀ k e, t k = some e → k ∈ s.queue ∨ (k = env.nodeId enr ∧ res ≠ .failed) := by
      refine ⟨fun k e he => ?_, fun k e he => ?_, fun k e he => ?_⟩ <;>
        by_cases hke : k = env.nodeId enr
      · subst hke
        rw [he] at h1
        generalize hold : s.table (env.nodeId enr) = old at h1
        by_cases hl' : env.nodeId enr = localId
        · have hres := h3 hl'
          subst hres
          cases h1 with
          | refused _ h => exact hk _ _ hold
        · refine ⟨?_, hl'⟩
          cases h1 with
          | refused _ h => exact (hk _ _ hold).1
          | _ => rfl
      · obtain ⟨e0, h0, _, h5⟩ := (h2 k hke).status he
        rw [h5]; exact hk k e0 h0
      · subst hke
        rw [he] at h1
        generalize hold : s.table (env.nodeId enr) = old at h1
        cases h1 with
        | refused _ h => exact hs _ _ hold
        | _ => exact ⟨rfl, rfl⟩
      · obtain ⟨e0, h0, h4, h5⟩ := (h2 k hke).status he
        rw [h4, h5]; exact hs k e0 h0
      · subst hke
        rw [he] at h1
        generalize hold : s.table (env.nodeId enr) = old at h1
        cases h1 with
        | refused _ h => exact .inl (hq _ _ hold)
        | _ => exact .inr ⟨rfl, by simp⟩
      · obtain ⟨e0, h0, _⟩ := (h2 k hke).status he
        exact .inl (hq k e0 h0)
    obtain ⟨f1, f2, f3⟩ := facts
    cases res with
    | failed =>
      refine ⟨f1, hp, fun k e he => ?_, f2⟩
      rcases f3 k e he with h | h
      · exact h
      · exact absurd rfl h.2
    | _ =>
      refine ⟨f1, hp, fun k e he => ?_, f2⟩
      rcases f3 k e he with h | ⟨h, _⟩
      · exact .tail _ h
      · subst h; exact .head _

theorem boot_spec {lib : Lib E} (hl : Lawful env localId lib) (enrs : List E) :
    Keyed env localId (boot env lib enrs).table ∧ (boot env lib enrs).past = [] ∧ (∀ k, Queued (boot env lib enrs) k) ∧
      ∀ k e, (boot env lib enrs).table k = some e → e.status.connected = false ∧ e.node.radius = maxRadius :=
  boot_init hl enrs ⟨fun _ => none, [], [], []⟩
    ⟨fun _ _ he => (nomatch he), rfl, fun _ _ he => (nomatch he), fun _ _ he => (nomatch he)⟩

theorem run_keyed (s : State E) (h : Keyed env localId s.table) : ∀ hist : List (Lib E × Event E),
    (∀ x ∈ hist, Lawful env localId x.1 ∧ x.2.Consistent env) → Keyed env localId (run env localId s hist).table
  | [], _ => h
  | (lib, ev) :: hist, hh =>
    (step_path (hh _ (.head _)).1 _ ev (run_keyed s h hist fun x hx => hh x (.tail _ hx)) (hh _ (.head _)).2).keyed
      (run_keyed s h hist fun x hx => hh x (.tail _ hx))

end Verif.Routing
