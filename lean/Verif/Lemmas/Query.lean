import Verif.Lemmas.Distance
import Verif.Props.QuerySpec

/-! Helper lemmas for the lookups. -/

namespace Verif.Query
open Verif Verif.Props

theorem dist_inj {t a b : Id} (h : xorDistance a t = xorDistance b t) : a = b := by
  rw [xorDistance_comm a, xorDistance_comm b] at h
  exact xorDistance_inj h

theorem dist_eq_iff {t a b : Id} : xorDistance a t = xorDistance b t ↔ a = b :=
  ⟨dist_inj, fun h => by rw [h]⟩

def isWaiting (p : Peer) : Bool := match p.state with
  | .waiting _ => true
  | _ => false

def Sorted (t : Id) (l : List Peer) : Prop :=
  l.Pairwise (fun a b => xorDistance a.id t < xorDistance b.id t)

theorem Sorted.uniq {t : Id} {l : List Peer} (h : Sorted t l) {a b : Peer} (ha : a ∈ l)
    (hb : b ∈ l) (he : a.id = b.id) : a = b := by
  induction l with
  | nil => cases ha
  | cons x xs ih =>
    have h' := List.pairwise_cons.mp h
    rcases List.mem_cons.mp ha with rfl | ha' <;> rcases List.mem_cons.mp hb with rfl | hb'
    · rfl
    · have := h'.1 b hb'; rw [he] at this; omega
    · have := h'.1 a ha'; rw [he] at this; omega
    · exact ih h'.2 ha' hb'

theorem orInsert_cases {t : Id} (p : Peer) {l : List Peer} (h : Sorted t l) :
    ((∃ x ∈ l, x.id = p.id) ∧ orInsert t p l = l) ∨
    ((∀ x ∈ l, x.id ≠ p.id) ∧ (orInsert t p l).Perm (p :: l) ∧ Sorted t (orInsert t p l)) := by
  induction l with
  | nil => exact .inr ⟨fun x hx => by simp at hx, by simp [orInsert], by simp [orInsert, Sorted]⟩
  | cons q qs ih =>
    have h' := List.pairwise_cons.mp h
    unfold orInsert
    by_cases h1 : xorDistance p.id t < xorDistance q.id t
    · rw [if_pos h1]
      refine .inr ⟨?_, List.Perm.refl _, ?_⟩
      · intro x hx he
        rcases List.mem_cons.mp hx with rfl | hx
        · rw [he] at h1; omega
        · have := h'.1 x hx; rw [he] at this; omega
      · refine List.pairwise_cons.mpr ⟨?_, h⟩
        intro x hx
        rcases List.mem_cons.mp hx with rfl | hx
        · exact h1
        · exact Nat.lt_trans h1 (h'.1 x hx)
    · rw [if_neg h1]
      by_cases h2 : xorDistance p.id t = xorDistance q.id t
      · rw [if_pos h2]
        exact .inl ⟨⟨q, List.mem_cons_self, (dist_inj h2).symm⟩, rfl⟩
      · rw [if_neg h2]
        rcases ih h'.2 with ⟨⟨x, hx, he⟩, heq⟩ | ⟨hn, hp, hs⟩
        · exact .inl ⟨⟨x, List.mem_cons_of_mem _ hx, he⟩, by rw [heq]⟩
        · refine .inr ⟨?_, ?_, ?_⟩
          · intro x hx he
            rcases List.mem_cons.mp hx with rfl | hx
            · exact h2 (by rw [he])
            · exact hn x hx he
          · exact (List.Perm.cons q hp).trans (List.Perm.swap p q qs)
          · refine List.pairwise_cons.mpr ⟨?_, hs⟩
            intro x hx
            rcases List.mem_cons.mp (hp.mem_iff.mp hx) with rfl | hx
            · omega
            · exact h'.1 x hx

/-- The result of inserting peers named by others. -/
structure Grown (t : Id) (ids : List Id) (l l' : List Peer) : Prop where
  sorted : Sorted t l'
  mem : ∀ p ∈ l', p ∈ l ∨ ((∀ x ∈ l, x.id ≠ p.id) ∧ p.state = .notContacted ∧ p.id ∈ ids)
  keep : ∀ p ∈ l, p ∈ l'
  all : ∀ id ∈ ids, ∃ p ∈ l', p.id = id
  count : l'.countP isWaiting = l.countP isWaiting

theorem Grown.refl {t : Id} {l : List Peer} (h : Sorted t l) : Grown t [] l l :=
  ⟨h, fun p hp => .inl hp, fun p hp => hp, fun id hid => (by cases hid), rfl⟩

theorem Grown.step {t id : Id} {ids : List Id} {l l' : List Peer} (hs : Sorted t l)
    (h : Grown t ids (orInsert t ⟨id, .notContacted⟩ l) l') : Grown t (id :: ids) l l' := by
  rcases orInsert_cases ⟨id, .notContacted⟩ hs with ⟨⟨x, hx, he⟩, heq⟩ | ⟨hn, hp, _⟩
  · rw [heq] at h
    refine ⟨h.sorted, ?_, h.keep, ?_, h.count⟩
    · intro p hp
      rcases h.mem p hp with h1 | ⟨h1, h2, h3⟩
      · exact .inl h1
      · exact .inr ⟨h1, h2, List.mem_cons_of_mem _ h3⟩
    · intro i hi
      rcases List.mem_cons.mp hi with rfl | hi
      · exact ⟨x, h.keep x hx, he⟩
      · exact h.all i hi
  · refine ⟨h.sorted, ?_, ?_, ?_, ?_⟩
    · intro p hpm
      rcases h.mem p hpm with h1 | ⟨h1, h2, h3⟩
      · rcases List.mem_cons.mp (hp.mem_iff.mp h1) with rfl | h1
        · exact .inr ⟨hn, rfl, List.mem_cons_self⟩
        · exact .inl h1
      · refine .inr ⟨fun x hx => h1 x (hp.mem_iff.mpr (List.mem_cons_of_mem _ hx)), h2,
          List.mem_cons_of_mem _ h3⟩
    · intro p hpm
      exact h.keep p (hp.mem_iff.mpr (List.mem_cons_of_mem _ hpm))
    · intro i hi
      rcases List.mem_cons.mp hi with rfl | hi
      · exact ⟨_, h.keep _ (hp.mem_iff.mpr List.mem_cons_self), rfl⟩
      · exact h.all i hi
    · rw [h.count, hp.countP_eq, List.countP_cons]
      simp [isWaiting]

theorem orInsert_sorted {t : Id} (p : Peer) {l : List Peer} (h : Sorted t l) :
    Sorted t (orInsert t p l) := by
  rcases orInsert_cases p h with ⟨_, heq⟩ | ⟨_, _, hs⟩
  · rw [heq]; exact h
  · exact hs

theorem addPeers_grown (t : Id) (a b : Nat) : ∀ (ids : List Id) (l : List Peer) (f : Bool),
    Sorted t l → Grown t ids l (addPeers t a b ids l f).1
  | [], l, f, h => Grown.refl h
  | id :: ids, l, f, h => by
    unfold addPeers
    exact Grown.step h (addPeers_grown t a b ids _ _ (orInsert_sorted _ h))

theorem foldl_grown (t : Id) : ∀ (ids : List Id) (l : List Peer), Sorted t l →
    Grown t ids l (ids.foldl (fun m id => orInsert t ⟨id, .notContacted⟩ m) l)
  | [], l, h => Grown.refl h
  | id :: ids, l, h => by
    rw [List.foldl_cons]
    exact Grown.step h (foldl_grown t ids _ (orInsert_sorted _ h))

theorem nextProgress_finished (cfg : Config) (cur : Progress) (b : Bool) :
    nextProgress cfg cur b = .finished ↔ cur = .finished := by
  unfold nextProgress
  cases cur <;> cases b <;> simp <;> split <;> simp

/-! ### The invariant -/

/-- The state of a peer agrees with the record. -/
def StateOk (r : Record) (p : Peer) : Prop :=
  match p.state with
  | .notContacted => p.id ∉ r.askedIds
  | .waiting t => (p.id, t) ∈ r.asked ∧ p.id ∉ r.answered ∧ p.id ∉ r.failed
  | .unresponsive => p.id ∈ r.askedIds ∧ p.id ∉ r.answered ∧ p.id ∉ r.failed
  | .failed => p.id ∈ r.askedIds ∧ p.id ∉ r.answered ∧ p.id ∈ r.failed
  | .succeeded => p.id ∈ r.askedIds ∧ p.id ∈ r.answered ∧ p.id ∉ r.failed

structure Inv (cfg : Config) (t : Id) (q : Query) (r : Record) : Prop where
  cfgEq : q.cfg = cfg
  targetEq : q.target = t
  sorted : Sorted t q.peers
  known : ∀ id, (∃ p ∈ q.peers, p.id = id) ↔ id ∈ r.known
  state : ∀ p ∈ q.peers, StateOk r p
  asked : ∀ id ∈ r.askedIds, id ∈ r.known
  nodup : r.askedIds.Nodup
  answered : ∀ id ∈ r.answered, id ∈ r.askedIds
  answeredNodup : r.answered.Nodup
  failed : ∀ id ∈ r.failed, id ∈ r.askedIds
  count : q.numWaiting = q.peers.countP isWaiting
  pending : ∀ x ∈ r.pending, ∃ p ∈ q.peers, p.id = x.1 ∧ p.state = .waiting x.2
  pendingNodup : (r.pending.map (·.1)).Nodup
  over : r.over = true ↔ q.progress = .finished
  bound : q.numWaiting ≤ max cfg.parallelism cfg.numResults

theorem start_inv (cfg : Config) (t : Id) (known : List Id) :
    Inv cfg t (withConfig cfg t known) (Record.start cfg known) := by
  have h := foldl_grown t (known.take cfg.numResults) [] (List.Pairwise.nil)
  refine ⟨rfl, rfl, h.sorted, ?_, ?_, ?_, ?_, ?_, ?_, ?_, ?_, ?_, ?_, ?_, ?_⟩
  · intro id
    constructor
    · rintro ⟨p, hp, rfl⟩
      rcases h.mem p hp with h1 | ⟨_, _, h3⟩
      · cases h1
      · exact h3
    · exact h.all id
  · intro p hp
    rcases h.mem p hp with h1 | ⟨_, h2, _⟩
    · cases h1
    · unfold StateOk; rw [h2]; simp [Record.start, Record.askedIds]
  · intro id hid; simp [Record.start, Record.askedIds] at hid
  · simp [Record.start, Record.askedIds]
  · intro id hid; simp [Record.start] at hid
  · simp [Record.start]
  · intro id hid; simp [Record.start] at hid
  · exact h.count.symm
  · intro x hx; simp [Record.start] at hx
  · simp [Record.start]
  · simp [Record.start, withConfig]
  · simp [withConfig]

theorem lookup_some {cfg : Config} {t : Id} {q : Query} {r : Record} (h : Inv cfg t q r) (id : Id)
    {p : Peer} (hp : p ∈ q.peers) (he : p.id = id) : lookup q id = some p := by
  unfold lookup
  cases hf : q.peers.find? (fun p => decide (xorDistance p.id q.target = xorDistance id q.target)) with
  | none =>
    have := List.find?_eq_none.mp hf p hp
    simp [he] at this
  | some x =>
    have h1 := List.find?_some hf
    have h2 := List.mem_of_find?_eq_some hf
    have h3 : x.id = id := dist_inj (of_decide_eq_true h1)
    rw [h.sorted.uniq h2 hp (by rw [h3, he])]

theorem lookup_none {q : Query} (id : Id) (h : ∀ p ∈ q.peers, p.id ≠ id) : lookup q id = none := by
  unfold lookup
  rw [List.find?_eq_none]
  intro x hx
  simp only [decide_eq_true_eq]
  intro he
  exact h x hx (dist_inj he)

theorem setState_eq (q : Query) (id : Id) (s : PeerState) :
    setState q id s = q.peers.map (fun p => if p.id = id then { p with state := s } else p) := by
  unfold setState
  apply List.map_congr_left
  intro p _
  simp only [dist_eq_iff]

theorem map_noop (id : Id) (s : PeerState) : ∀ (l : List Peer), (∀ x ∈ l, x.id ≠ id) →
    l.map (fun p => if p.id = id then { p with state := s } else p) = l
  | [], _ => rfl
  | x :: xs, h => by
    rw [List.map_cons, if_neg (h x List.mem_cons_self),
      map_noop id s xs (fun y hy => h y (List.mem_cons_of_mem _ hy))]

theorem count_setState {t : Id} {l : List Peer} (hs : Sorted t l) {p : Peer} (hp : p ∈ l)
    {s : PeerState} (hw : isWaiting ⟨p.id, s⟩ = false) :
    (l.map (fun x => if x.id = p.id then { x with state := s } else x)).countP isWaiting
      + (if isWaiting p then 1 else 0) = l.countP isWaiting := by
  induction l with
  | nil => cases hp
  | cons x xs ih =>
    have hs' := List.pairwise_cons.mp hs
    rw [List.map_cons, List.countP_cons, List.countP_cons]
    rcases List.mem_cons.mp hp with rfl | hp'
    · have hne : ∀ y ∈ xs, y.id ≠ p.id := by
        intro y hy he
        have := hs'.1 y hy; rw [he] at this; omega
      rw [map_noop _ _ _ hne]
      simp only [if_true, hw]
      simp
    · have hne : x.id ≠ p.id := by
        intro he
        have := hs'.1 p hp'; rw [he] at this; omega
      rw [if_neg hne]
      have := ih hs'.2 hp'
      omega

/-- Whether a report counts, and what it does. -/
theorem settle_spec {cfg : Config} {t : Id} {q : Query} {r : Record} (h : Inv cfg t q r) (id : Id)
    (s : PeerState) (hw : isWaiting ⟨id, s⟩ = false) :
    (r.expects id = false ∧ settle q id s = .ignored) ∨
    (r.expects id = true ∧ ∃ q', settle q id s = .settled q' ∧ q'.cfg = q.cfg ∧
      q'.target = q.target ∧ q'.progress = q.progress ∧ q'.started = q.started ∧
      q'.peers = q.peers.map (fun x => if x.id = id then { x with state := s } else x) ∧
      q'.numWaiting = q'.peers.countP isWaiting ∧ q'.numWaiting ≤ q.numWaiting ∧
      ∃ p ∈ q.peers, p.id = id ∧ p.state ≠ .notContacted) := by
  unfold settle
  by_cases hf : q.progress = .finished
  · rw [if_pos hf]
    refine .inl ⟨?_, rfl⟩
    simp [Record.expects, h.over.mpr hf]
  · rw [if_neg hf]
    have hov : r.over = false := by
      cases hr : r.over with
      | false => rfl
      | true => exact absurd (h.over.mp hr) hf
    by_cases hk : ∃ p ∈ q.peers, p.id = id
    · obtain ⟨p, hp, he⟩ := hk
      rw [lookup_some h id hp he]
      have hst := h.state p hp
      have hc := count_setState h.sorted hp (s := s) (by rw [he]; exact hw)
      rw [he] at hc
      have hcnt := h.count
      unfold StateOk at hst
      cases hps : p.state with
      | notContacted =>
        simp only [hps, he] at hst ⊢
        refine .inl ⟨?_, trivial⟩
        simp [Record.expects, hst]
      | waiting d =>
        simp only [hps, he] at hst ⊢
        have hask : id ∈ r.askedIds := List.mem_map.mpr ⟨_, hst.1, rfl⟩
        have hiw : isWaiting p = true := by simp [isWaiting, hps]
        rw [if_pos hiw] at hc
        have hpos : q.numWaiting ≠ 0 := by omega
        simp only [if_neg hpos]
        refine .inr ⟨by simp [Record.expects, hov, hask, hst.2.1, hst.2.2],
          { q with numWaiting := q.numWaiting - 1, peers := setState q id s }, rfl, rfl, rfl, rfl,
          rfl, setState_eq _ _ _, ?_, Nat.sub_le _ _, p, hp, he, by rw [hps]; simp⟩
        simp only [setState_eq]; omega
      | unresponsive =>
        simp only [hps, he] at hst ⊢
        have hiw : isWaiting p = false := by simp [isWaiting, hps]
        rw [hiw] at hc
        refine .inr ⟨by simp [Record.expects, hov, hst.1, hst.2.1, hst.2.2],
          { q with peers := setState q id s }, rfl, rfl, rfl, rfl,
          rfl, setState_eq _ _ _, ?_, Nat.le_refl _, p, hp, he, by rw [hps]; simp⟩
        simp only [setState_eq]
        simp only [Bool.false_eq_true, if_false] at hc
        omega
      | failed =>
        simp only [hps, he] at hst ⊢
        exact .inl ⟨by simp [Record.expects, hst.2.2], trivial⟩
      | succeeded =>
        simp only [hps, he] at hst ⊢
        exact .inl ⟨by simp [Record.expects, hst.2.1], trivial⟩
    · have hk' : ∀ p ∈ q.peers, p.id ≠ id := fun p hp he => hk ⟨p, hp, he⟩
      rw [lookup_none id hk']
      refine .inl ⟨?_, rfl⟩
      have : id ∉ r.askedIds := fun hi => hk ((h.known id).mpr (h.asked id hi))
      simp [Record.expects, this]

theorem expects_iff (r : Record) (id : Id) : r.expects id = true ↔
    r.over = false ∧ id ∈ r.askedIds ∧ id ∉ r.answered ∧ id ∉ r.failed := by
  simp [Record.expects, and_assoc]

theorem settled_mem {id : Id} {s : PeerState} {l : List Peer} {x : Peer}
    (hx : x ∈ l.map (fun y => if y.id = id then { y with state := s } else y)) :
    (x ∈ l ∧ x.id ≠ id) ∨ (x = ⟨id, s⟩ ∧ ∃ y ∈ l, y.id = id) := by
  obtain ⟨y, hy, rfl⟩ := List.mem_map.mp hx
  by_cases he : y.id = id
  · rw [if_pos he]
    exact .inr ⟨by rw [← he], y, hy, he⟩
  · rw [if_neg he]; exact .inl ⟨hy, he⟩

theorem settled_sorted {t id : Id} {s : PeerState} {l : List Peer} (h : Sorted t l) :
    Sorted t (l.map (fun y => if y.id = id then { y with state := s } else y)) := by
  unfold Sorted
  rw [List.pairwise_map]
  refine List.Pairwise.imp ?_ h
  intro a b hab
  have e : ∀ y : Peer, (if y.id = id then { y with state := s } else y).id = y.id := by
    intro y; split <;> rfl
  rw [e, e]; exact hab

theorem settled_ids {id i : Id} {s : PeerState} {l : List Peer} :
    (∃ p ∈ l.map (fun y => if y.id = id then { y with state := s } else y), p.id = i) ↔
      ∃ p ∈ l, p.id = i := by
  have e : ∀ y : Peer, (if y.id = id then { y with state := s } else y).id = y.id := by
    intro y; split <;> rfl
  constructor
  · rintro ⟨p, hp, rfl⟩
    obtain ⟨y, hy, rfl⟩ := List.mem_map.mp hp
    exact ⟨y, hy, (e y).symm⟩
  · rintro ⟨p, hp, rfl⟩
    exact ⟨_, List.mem_map.mpr ⟨p, hp, rfl⟩, e p⟩

/-- A success that counts. -/
theorem success_inv {cfg : Config} {t : Id} {q q' : Query} {r : Record} (h : Inv cfg t q r)
    {id : Id} (he : r.expects id = true) (hc : q'.cfg = q.cfg) (ht : q'.target = q.target)
    (hp : q'.progress = q.progress)
    (hps : q'.peers = q.peers.map (fun x => if x.id = id then { x with state := .succeeded } else x))
    (hn : q'.numWaiting = q'.peers.countP isWaiting) (hle : q'.numWaiting ≤ q.numWaiting) :
    Inv cfg t q' { r with answered := r.answered ++ [id]
                          pending := r.pending.filter (fun x => decide (x.1 ≠ id)) } := by
  obtain ⟨h0, h1, h2, h3⟩ := (expects_iff r id).mp he
  refine ⟨by rw [hc]; exact h.cfgEq, by rw [ht]; exact h.targetEq, ?_, ?_, ?_, h.asked, h.nodup, ?_, ?_,
    h.failed, hn, ?_, ?_, by rw [hp]; exact h.over, Nat.le_trans hle h.bound⟩
  · rw [hps]; exact settled_sorted h.sorted
  · intro i; rw [hps, settled_ids]; exact h.known i
  · intro x hx
    rw [hps] at hx
    rcases settled_mem hx with ⟨hx, hne⟩ | ⟨rfl, _⟩
    · have := h.state x hx
      unfold StateOk at this ⊢
      cases hs : x.state <;> simp only [hs] at this ⊢ <;>
        simp_all [Record.askedIds, List.mem_append]
    · simp only [StateOk]
      exact ⟨h1, List.mem_append_right _ (List.mem_singleton.mpr rfl), h3⟩
  · intro i hi
    rcases List.mem_append.mp hi with hi | hi
    · exact h.answered i hi
    · rw [List.mem_singleton.mp hi]; exact h1
  · rw [List.nodup_append]
    refine ⟨h.answeredNodup, by simp, ?_⟩
    intro a ha b hb
    rw [List.mem_singleton.mp hb]
    rintro rfl; exact h2 ha
  · intro x hx
    obtain ⟨hx, hne⟩ := List.mem_filter.mp hx
    have hne : x.1 ≠ id := of_decide_eq_true hne
    obtain ⟨p, hp, he, hs⟩ := h.pending x hx
    refine ⟨p, ?_, he, hs⟩
    rw [hps]
    refine List.mem_map.mpr ⟨p, hp, ?_⟩
    rw [if_neg (by rw [he]; exact hne)]
  · exact List.Nodup.sublist (List.Sublist.map _ List.filter_sublist) h.pendingNodup

/-- A failure that counts. -/
theorem failure_inv {cfg : Config} {t : Id} {q q' : Query} {r : Record} (h : Inv cfg t q r)
    {id : Id} (he : r.expects id = true) (hc : q'.cfg = q.cfg) (ht : q'.target = q.target)
    (hp : q'.progress = q.progress)
    (hps : q'.peers = q.peers.map (fun x => if x.id = id then { x with state := .failed } else x))
    (hn : q'.numWaiting = q'.peers.countP isWaiting) (hle : q'.numWaiting ≤ q.numWaiting) :
    Inv cfg t q' { r with failed := r.failed ++ [id]
                          pending := r.pending.filter (fun x => decide (x.1 ≠ id)) } := by
  obtain ⟨h0, h1, h2, h3⟩ := (expects_iff r id).mp he
  refine ⟨by rw [hc]; exact h.cfgEq, by rw [ht]; exact h.targetEq, ?_, ?_, ?_, h.asked, h.nodup,
    h.answered, h.answeredNodup, ?_, hn, ?_, ?_, by rw [hp]; exact h.over,
    Nat.le_trans hle h.bound⟩
  · rw [hps]; exact settled_sorted h.sorted
  · intro i; rw [hps, settled_ids]; exact h.known i
  · intro x hx
    rw [hps] at hx
    rcases settled_mem hx with ⟨hx, hne⟩ | ⟨rfl, _⟩
    · have := h.state x hx
      unfold StateOk at this ⊢
      cases hs : x.state <;> simp only [hs] at this ⊢ <;>
        simp_all [Record.askedIds, List.mem_append]
    · simp only [StateOk]
      exact ⟨h1, h2, List.mem_append_right _ (List.mem_singleton.mpr rfl)⟩
  · intro i hi
    rcases List.mem_append.mp hi with hi | hi
    · exact h.failed i hi
    · rw [List.mem_singleton.mp hi]; exact h1
  · intro x hx
    obtain ⟨hx, hne⟩ := List.mem_filter.mp hx
    have hne : x.1 ≠ id := of_decide_eq_true hne
    obtain ⟨p, hp, he, hs⟩ := h.pending x hx
    refine ⟨p, ?_, he, hs⟩
    rw [hps]
    refine List.mem_map.mpr ⟨p, hp, ?_⟩
    rw [if_neg (by rw [he]; exact hne)]
  · exact List.Nodup.sublist (List.Sublist.map _ List.filter_sublist) h.pendingNodup

/-- Peers named by a peer that answered. -/
theorem incorporate_inv {cfg : Config} {t : Id} {q : Query} {r : Record} (h : Inv cfg t q r)
    (ids : List Id) : Inv cfg t (incorporate q ids) { r with known := r.known ++ ids } := by
  have hg : Grown t ids q.peers (incorporate q ids).peers := by
    have := addPeers_grown t q.peers.length q.cfg.numResults ids q.peers false h.sorted
    rw [← h.targetEq] at this
    rw [← h.targetEq]; exact this
  have hpr : (incorporate q ids).progress = .finished ↔ q.progress = .finished :=
    nextProgress_finished _ _ _
  have hnw : (incorporate q ids).numWaiting = q.numWaiting := rfl
  refine ⟨h.cfgEq, h.targetEq, hg.sorted, ?_, ?_, ?_, h.nodup, h.answered, h.answeredNodup, h.failed,
    ?_, ?_, h.pendingNodup, ?_, h.bound⟩
  · intro i
    rw [List.mem_append, ← h.known i]
    constructor
    · rintro ⟨p, hp, rfl⟩
      rcases hg.mem p hp with h1 | ⟨_, _, h3⟩
      · exact .inl ⟨p, h1, rfl⟩
      · exact .inr h3
    · rintro (⟨p, hp, rfl⟩ | hi)
      · exact ⟨p, hg.keep p hp, rfl⟩
      · exact hg.all i hi
  · intro p hp
    rcases hg.mem p hp with h1 | ⟨h1, h2, _⟩
    · exact h.state p h1
    · unfold StateOk
      rw [h2]
      intro ha
      obtain ⟨x, hx, he⟩ := (h.known p.id).mpr (h.asked _ ha)
      exact h1 x hx he
  · intro i hi
    exact List.mem_append_left _ (h.asked i hi)
  · rw [hnw, hg.count]; exact h.count
  · intro x hx
    obtain ⟨p, hp, h1⟩ := h.pending x hx
    exact ⟨p, hg.keep p hp, h1⟩
  · rw [hpr]; exact h.over

theorem onFailure_inv {cfg : Config} {t : Id} {q : Query} {r : Record} (h : Inv cfg t q r)
    (id : Id) : ∃ q', onFailure q id = some q' ∧ Inv cfg t q' (r.see cfg (.failure id)) := by
  unfold onFailure
  rcases settle_spec h id .failed rfl with ⟨he, hs⟩ | ⟨he, q', hs, h1, h2, h3, _, h4, h5, h6, _⟩
  · exact ⟨q, by rw [hs], by simp only [Record.see, he]; exact h⟩
  · refine ⟨q', by rw [hs], ?_⟩
    simp only [Record.see, he, if_true]
    exact failure_inv h he h1 h2 h3 h4 h5 h6

theorem onSuccess_inv {cfg : Config} {t : Id} {q : Query} {r : Record} (h : Inv cfg t q r)
    (id : Id) (resp : List Id) :
    ∃ q', onSuccess q id resp = some q' ∧ Inv cfg t q' (r.see cfg (.success id resp)) := by
  unfold onSuccess
  rcases settle_spec h id .succeeded rfl with ⟨he, hs⟩ | ⟨he, q', hs, h1, h2, h3, _, h4, h5, h6, _⟩
  · exact ⟨q, by rw [hs], by simp only [Record.see, he]; exact h⟩
  · refine ⟨incorporate q' resp, by rw [hs], ?_⟩
    simp only [Record.see, he, if_true]
    exact incorporate_inv (success_inv h he h1 h2 h3 h4 h5 h6) resp

/-! ### The loop of `poll` -/

/-- What happens to a peer the loop passes. -/
def age (now : Nat) (p : Peer) : Peer :=
  match p.state with
  | .waiting t => if t ≤ now then { p with state := .unresponsive } else p
  | _ => p

theorem age_id (now : Nat) (p : Peer) : (age now p).id = p.id := by
  unfold age
  split
  · split <;> rfl
  · rfl

def isSucceeded (p : Peer) : Bool := decide (p.state = .succeeded)

/-- How the loop ended, at the rest `post` of the peers. -/
def Ended (cfg : Config) (atCap : Bool) (now : Nat) (c : Option Nat) (pre post post' : List Peer)
    (st : Option QState) : Prop :=
  (st = none ∧ post = [] ∧ post' = []) ∨
  (∃ p rest, st = some (.waiting (some p.id)) ∧ atCap = false ∧ post = p :: rest ∧
    p.state = .notContacted ∧
    post' = { p with state := .waiting (now + cfg.peerTimeout) } :: rest) ∨
  (st = some .atCapacity ∧ atCap = true ∧ post' = post ∧ ∃ p rest, post = p :: rest ∧
    (p.state = .notContacted ∨ ∃ t, p.state = .waiting t ∧ now < t)) ∨
  (st = some .finished ∧ post' = post ∧ ∃ p rest n, post = p :: rest ∧ p.state = .succeeded ∧
    c = some n ∧ (∀ x ∈ pre.map (age now), isWaiting x = false) ∧
    cfg.numResults ≤ n + pre.countP isSucceeded + 1)

theorem pollLoop_spec (cfg : Config) (atCap : Bool) (now : Nat) :
    ∀ (l : List Peer) (c : Option Nat) (w : Nat), l.countP isWaiting ≤ w →
    ∃ pre post post' w' st, l = pre ++ post ∧
      pollLoop cfg atCap now l c w = some (pre.map (age now) ++ post', w', st) ∧
      w' + l.countP isWaiting = w + (pre.map (age now) ++ post').countP isWaiting ∧
      (∀ p ∈ pre, p.state ≠ .notContacted) ∧
      (atCap = true → ∀ p ∈ pre.map (age now), isWaiting p = false) ∧
      Ended cfg atCap now c pre post post' st
  | [], c, w, _ => ⟨[], [], [], w, none, rfl, rfl, by simp, by simp, by simp, .inl ⟨rfl, rfl, rfl⟩⟩
  | p :: ps, c, w, hw => by
    have hcp : (p :: ps).countP isWaiting = ps.countP isWaiting + if isWaiting p then 1 else 0 :=
      List.countP_cons
    cases hs : p.state with
    | notContacted =>
      have hiw : isWaiting p = false := by simp [isWaiting, hs]
      unfold pollLoop
      simp only [hs]
      cases atCap with
      | true =>
        refine ⟨[], p :: ps, p :: ps, w, _, rfl, rfl, by simp, by simp, by simp, ?_⟩
        exact .inr (.inr (.inl ⟨rfl, rfl, rfl, p, ps, rfl, .inl hs⟩))
      | false =>
        refine ⟨[], p :: ps, _, w + 1, _, rfl, rfl, ?_, by simp, by simp, ?_⟩
        · simp only [List.map_nil, List.nil_append]
          rw [hcp, hiw, List.countP_cons]
          simp [isWaiting]
          omega
        · exact .inr (.inl ⟨p, ps, rfl, rfl, rfl, hs, rfl⟩)
    | waiting t =>
      have hiw : isWaiting p = true := by simp [isWaiting, hs]
      rw [hiw] at hcp
      simp only [if_true] at hcp
      unfold pollLoop
      simp only [hs]
      by_cases ht : t ≤ now
      · simp only [if_pos ht]
        have hw0 : w ≠ 0 := by omega
        simp only [if_neg hw0]
        obtain ⟨pre, post, post', w', st, h1, h2, h3, h4, h5, h6⟩ :=
          pollLoop_spec cfg atCap now ps c (w - 1) (by omega)
        have hage : age now p = { p with state := .unresponsive } := by
          unfold age; simp only [hs, if_pos ht]
        refine ⟨p :: pre, post, post', w', st, by rw [h1]; rfl, ?_, ?_, ?_, ?_, ?_⟩
        · rw [h2, List.map_cons, hage]; rfl
        · have : ((p :: pre).map (age now) ++ post').countP isWaiting =
              (pre.map (age now) ++ post').countP isWaiting := by
            rw [List.map_cons, hage, List.cons_append, List.countP_cons]; simp [isWaiting]
          rw [this, hcp]; omega
        · intro x hx
          rcases List.mem_cons.mp hx with rfl | hx
          · rw [hs]; simp
          · exact h4 x hx
        · intro ha x hx
          rw [List.map_cons, hage] at hx
          rcases List.mem_cons.mp hx with rfl | hx
          · rfl
          · exact h5 ha x hx
        · rcases h6 with h6 | h6 | h6 | ⟨e1, e2, x, rest, n, e3, e4, e5, e6, e7⟩
          · exact .inl h6
          · exact .inr (.inl h6)
          · exact .inr (.inr (.inl h6))
          · refine .inr (.inr (.inr ⟨e1, e2, x, rest, n, e3, e4, e5, ?_, ?_⟩))
            · intro y hy
              rw [List.map_cons, hage] at hy
              rcases List.mem_cons.mp hy with rfl | hy
              · rfl
              · exact e6 y hy
            · rw [List.countP_cons]; simp [isSucceeded, hs]; exact e7
      · simp only [if_neg ht]
        have hage : age now p = p := by unfold age; simp only [hs, if_neg ht]
        cases atCap with
        | true =>
          refine ⟨[], p :: ps, p :: ps, w, _, rfl, rfl, by simp, by simp, by simp, ?_⟩
          exact .inr (.inr (.inl ⟨rfl, rfl, rfl, p, ps, rfl, .inr ⟨t, hs, by omega⟩⟩))
        | false =>
          obtain ⟨pre, post, post', w', st, h1, h2, h3, h4, h5, h6⟩ :=
            pollLoop_spec cfg false now ps none w (by omega)
          refine ⟨p :: pre, post, post', w', st, by rw [h1]; rfl, ?_, ?_, ?_, by simp, ?_⟩
          · rw [if_neg (by simp), h2, List.map_cons, hage]; rfl
          · have : ((p :: pre).map (age now) ++ post').countP isWaiting =
                (pre.map (age now) ++ post').countP isWaiting + 1 := by
              rw [List.map_cons, hage, List.cons_append, List.countP_cons]; simp [hiw]
            rw [this, hcp]; omega
          · intro x hx
            rcases List.mem_cons.mp hx with rfl | hx
            · rw [hs]; simp
            · exact h4 x hx
          · rcases h6 with h6 | h6 | h6 | ⟨e1, e2, x, rest, n, e3, e4, e5, e6, e7⟩
            · exact .inl h6
            · exact .inr (.inl h6)
            · exact .inr (.inr (.inl h6))
            · cases e5
    | succeeded =>
      have hiw : isWaiting p = false := by simp [isWaiting, hs]
      rw [hiw] at hcp
      simp only [Bool.false_eq_true, if_false, Nat.add_zero] at hcp
      have hage : age now p = p := by unfold age; simp only [hs]
      unfold pollLoop
      simp only [hs]
      cases c with
      | none =>
        obtain ⟨pre, post, post', w', st, h1, h2, h3, h4, h5, h6⟩ :=
          pollLoop_spec cfg atCap now ps none w (by omega)
        refine ⟨p :: pre, post, post', w', st, by rw [h1]; rfl, ?_, ?_, ?_, ?_, ?_⟩
        · simp only [h2, List.map_cons, hage]; rfl
        · rw [hcp, List.map_cons, hage, List.cons_append, List.countP_cons, hiw, if_neg (by simp)]; omega
        · intro x hx
          rcases List.mem_cons.mp hx with rfl | hx
          · rw [hs]; simp
          · exact h4 x hx
        · intro ha x hx
          rw [List.map_cons, hage] at hx
          rcases List.mem_cons.mp hx with rfl | hx
          · exact hiw
          · exact h5 ha x hx
        · rcases h6 with h6 | h6 | h6 | ⟨e1, e2, x, rest, n, e3, e4, e5, e6, e7⟩
          · exact .inl h6
          · exact .inr (.inl h6)
          · exact .inr (.inr (.inl h6))
          · cases e5
      | some n =>
        by_cases hn : cfg.numResults ≤ n + 1
        · simp only [if_pos hn]
          refine ⟨[], p :: ps, p :: ps, w, _, rfl, rfl, by simp, by simp, by simp, ?_⟩
          exact .inr (.inr (.inr ⟨rfl, rfl, p, ps, n, rfl, hs, rfl, by simp, by simpa using hn⟩))
        · simp only [if_neg hn]
          obtain ⟨pre, post, post', w', st, h1, h2, h3, h4, h5, h6⟩ :=
            pollLoop_spec cfg atCap now ps (some (n + 1)) w (by omega)
          refine ⟨p :: pre, post, post', w', st, by rw [h1]; rfl, ?_, ?_, ?_, ?_, ?_⟩
          · simp only [h2, List.map_cons, hage]; rfl
          · rw [hcp, List.map_cons, hage, List.cons_append, List.countP_cons, hiw, if_neg (by simp)]; omega
          · intro x hx
            rcases List.mem_cons.mp hx with rfl | hx
            · rw [hs]; simp
            · exact h4 x hx
          · intro ha x hx
            rw [List.map_cons, hage] at hx
            rcases List.mem_cons.mp hx with rfl | hx
            · exact hiw
            · exact h5 ha x hx
          · rcases h6 with h6 | h6 | h6 | ⟨e1, e2, x, rest, m, e3, e4, e5, e6, e7⟩
            · exact .inl h6
            · exact .inr (.inl h6)
            · exact .inr (.inr (.inl h6))
            · refine .inr (.inr (.inr ⟨e1, e2, x, rest, n, e3, e4, rfl, ?_, ?_⟩))
              · intro y hy
                rw [List.map_cons, hage] at hy
                rcases List.mem_cons.mp hy with rfl | hy
                · exact hiw
                · exact e6 y hy
              · injection e5 with e5
                have hsc : isSucceeded p = true := by simp [isSucceeded, hs]
                rw [List.countP_cons, hsc]; simp only [if_true]; omega
    | failed =>
      have hiw : isWaiting p = false := by simp [isWaiting, hs]
      rw [hiw] at hcp
      simp only [Bool.false_eq_true, if_false, Nat.add_zero] at hcp
      have hage : age now p = p := by unfold age; simp only [hs]
      unfold pollLoop
      simp only [hs]
      obtain ⟨pre, post, post', w', st, h1, h2, h3, h4, h5, h6⟩ :=
        pollLoop_spec cfg atCap now ps c w (by omega)
      refine ⟨p :: pre, post, post', w', st, by rw [h1]; rfl, ?_, ?_, ?_, ?_, ?_⟩
      · simp only [h2, List.map_cons, hage]; rfl
      · rw [hcp, List.map_cons, hage, List.cons_append, List.countP_cons, hiw, if_neg (by simp)]; omega
      · intro x hx
        rcases List.mem_cons.mp hx with rfl | hx
        · rw [hs]; simp
        · exact h4 x hx
      · intro ha x hx
        rw [List.map_cons, hage] at hx
        rcases List.mem_cons.mp hx with rfl | hx
        · exact hiw
        · exact h5 ha x hx
      · rcases h6 with h6 | h6 | h6 | ⟨e1, e2, x, rest, m, e3, e4, e5, e6, e7⟩
        · exact .inl h6
        · exact .inr (.inl h6)
        · exact .inr (.inr (.inl h6))
        · refine .inr (.inr (.inr ⟨e1, e2, x, rest, m, e3, e4, e5, ?_, ?_⟩))
          · intro y hy
            rw [List.map_cons, hage] at hy
            rcases List.mem_cons.mp hy with rfl | hy
            · exact hiw
            · exact e6 y hy
          · rw [List.countP_cons]; simp [isSucceeded, hs]; exact e7
    | unresponsive =>
      have hiw : isWaiting p = false := by simp [isWaiting, hs]
      rw [hiw] at hcp
      simp only [Bool.false_eq_true, if_false, Nat.add_zero] at hcp
      have hage : age now p = p := by unfold age; simp only [hs]
      unfold pollLoop
      simp only [hs]
      obtain ⟨pre, post, post', w', st, h1, h2, h3, h4, h5, h6⟩ :=
        pollLoop_spec cfg atCap now ps c w (by omega)
      refine ⟨p :: pre, post, post', w', st, by rw [h1]; rfl, ?_, ?_, ?_, ?_, ?_⟩
      · simp only [h2, List.map_cons, hage]; rfl
      · rw [hcp, List.map_cons, hage, List.cons_append, List.countP_cons, hiw, if_neg (by simp)]; omega
      · intro x hx
        rcases List.mem_cons.mp hx with rfl | hx
        · rw [hs]; simp
        · exact h4 x hx
      · intro ha x hx
        rw [List.map_cons, hage] at hx
        rcases List.mem_cons.mp hx with rfl | hx
        · exact hiw
        · exact h5 ha x hx
      · rcases h6 with h6 | h6 | h6 | ⟨e1, e2, x, rest, m, e3, e4, e5, e6, e7⟩
        · exact .inl h6
        · exact .inr (.inl h6)
        · exact .inr (.inr (.inl h6))
        · refine .inr (.inr (.inr ⟨e1, e2, x, rest, m, e3, e4, e5, ?_, ?_⟩))
          · intro y hy
            rw [List.map_cons, hage] at hy
            rcases List.mem_cons.mp hy with rfl | hy
            · exact hiw
            · exact e6 y hy
          · rw [List.countP_cons]; simp [isSucceeded, hs]; exact e7

/-! ### `poll` -/

theorem age_cases (now : Nat) (p : Peer) : age now p = p ∧ (∀ t, p.state = .waiting t → now < t) ∨
    ∃ t, p.state = .waiting t ∧ t ≤ now ∧ age now p = { p with state := .unresponsive } := by
  unfold age
  cases hs : p.state with
  | waiting t =>
    by_cases h : t ≤ now
    · exact .inr ⟨t, rfl, h, by simp [h]⟩
    · refine .inl ⟨by simp [h], ?_⟩
      intro t' ht'
      cases ht'; omega
  | _ => exact .inl ⟨rfl, fun t ht => by cases ht⟩

theorem atCapacity_false {cfg : Config} {q : Query} (hc : q.cfg = cfg) (h : atCapacity q = false) :
    q.numWaiting < max cfg.parallelism cfg.numResults := by
  unfold atCapacity at h
  subst hc
  cases hp : q.progress <;> simp [hp] at h <;> omega

/-- The peers after the loop: passed peers are aged, and at most one is handed out. -/
structure Looped (cfg : Config) (t : Id) (now : Nat) (q : Query) (ps : List Peer) (w : Nat)
    (st : Option QState) : Prop where
  ids : ∀ p ∈ ps, ∃ p0 ∈ q.peers, p0.id = p.id ∧
    (p = p0 ∨ (∃ d, p0.state = .waiting d ∧ d ≤ now ∧ p.state = .unresponsive) ∨
      (p0.state = .notContacted ∧ p.state = .waiting (now + cfg.peerTimeout) ∧
        st = some (.waiting (some p.id))))
  back : ∀ p0 ∈ q.peers, ∃ p ∈ ps, p.id = p0.id
  sorted : Sorted t ps
  count : w = ps.countP isWaiting
  handed : ∀ i, st = some (.waiting (some i)) → atCapacity q = false ∧ w ≤ q.numWaiting + 1 ∧
    ⟨i, .waiting (now + cfg.peerTimeout)⟩ ∈ ps ∧ ⟨i, .notContacted⟩ ∈ q.peers
  other : (∀ i, st ≠ some (.waiting (some i))) → w ≤ q.numWaiting

theorem countP_age_le (now : Nat) : ∀ l : List Peer,
    (l.map (age now)).countP isWaiting ≤ l.countP isWaiting
  | [] => Nat.le_refl _
  | p :: l => by
    have ih := countP_age_le now l
    rw [List.map_cons, List.countP_cons, List.countP_cons]
    rcases age_cases now p with ⟨h, _⟩ | ⟨t, h1, _, h3⟩
    · rw [h]; omega
    · have e : isWaiting ({ p with state := .unresponsive } : Peer) = false := rfl
      rw [h3, e, if_neg (by simp)]; omega

theorem sorted_of_ids {t : Id} {l l' : List Peer} (h : l'.map (·.id) = l.map (·.id))
    (hs : Sorted t l) : Sorted t l' := by
  have e : ∀ l : List Peer, Sorted t l ↔
      (l.map (·.id)).Pairwise (fun a b => xorDistance a t < xorDistance b t) := by
    intro l; unfold Sorted; rw [List.pairwise_map]
  rw [e] at hs ⊢
  rw [h]; exact hs

theorem map_age_ids (now : Nat) (l : List Peer) : (l.map (age now)).map (·.id) = l.map (·.id) := by
  rw [List.map_map]
  apply List.map_congr_left
  intro p _; exact age_id now p

theorem loop_looped {cfg : Config} {t : Id} {q : Query} {r : Record} (h : Inv cfg t q r)
    (now : Nat) (c : Option Nat) : ∃ ps w st pre post post', pollLoop q.cfg (atCapacity q) now q.peers c
      q.numWaiting = some (ps, w, st) ∧ Looped cfg t now q ps w st ∧
      q.peers = pre ++ post ∧ ps = pre.map (age now) ++ post' ∧
      (∀ p ∈ pre, p.state ≠ .notContacted) ∧
      (atCapacity q = true → ∀ p ∈ pre.map (age now), isWaiting p = false) ∧
      Ended cfg (atCapacity q) now c pre post post' st := by
  obtain ⟨pre, post, post', w, st, h1, h2, h3, h4, h5, h6⟩ :=
    pollLoop_spec q.cfg (atCapacity q) now q.peers c q.numWaiting (by rw [h.count]; exact Nat.le_refl _)
  rw [h.cfgEq] at h6
  have hids : (pre.map (age now) ++ post').map (·.id) = q.peers.map (·.id) := by
    rw [List.map_append, map_age_ids, h1, List.map_append]
    congr 1
    rcases h6 with ⟨_, e1, e2⟩ | ⟨p, rest, _, _, e1, _, e2⟩ | ⟨_, _, e1, _⟩ | ⟨_, e1, _⟩
    · rw [e1, e2]
    · rw [e1, e2]; rfl
    · rw [e1]
    · rw [e1]
  have hcount : w = (pre.map (age now) ++ post').countP isWaiting := by have := h.count; omega
  refine ⟨_, w, st, pre, post, post', h2, ⟨?_, ?_, sorted_of_ids hids h.sorted, hcount, ?_, ?_⟩, h1,
    rfl, h4, h5, h6⟩
  · intro p hp
    rcases List.mem_append.mp hp with hp | hp
    · obtain ⟨p0, hp0, rfl⟩ := List.mem_map.mp hp
      refine ⟨p0, by rw [h1]; exact List.mem_append_left _ hp0, (age_id now p0).symm, ?_⟩
      rcases age_cases now p0 with ⟨h, _⟩ | ⟨d, e1, e2, e3⟩
      · exact .inl h
      · exact .inr (.inl ⟨d, e1, e2, by rw [e3]⟩)
    · rcases h6 with ⟨_, e1, e2⟩ | ⟨x, rest, e0, _, e1, e3, e2⟩ | ⟨_, _, e1, _⟩ | ⟨_, e1, _⟩
      · rw [e2] at hp; cases hp
      · rw [e2] at hp
        rcases List.mem_cons.mp hp with rfl | hp
        · exact ⟨x, by rw [h1, e1]; simp, rfl, .inr (.inr ⟨e3, rfl, e0⟩)⟩
        · exact ⟨p, by rw [h1, e1]; simp [hp], rfl, .inl rfl⟩
      · rw [e1] at hp; exact ⟨p, by rw [h1]; simp [hp], rfl, .inl rfl⟩
      · rw [e1] at hp; exact ⟨p, by rw [h1]; simp [hp], rfl, .inl rfl⟩
  · intro p0 hp0
    have : p0.id ∈ (pre.map (age now) ++ post').map (·.id) := by
      rw [hids]; exact List.mem_map.mpr ⟨p0, hp0, rfl⟩
    obtain ⟨p, hp, he⟩ := List.mem_map.mp this
    exact ⟨p, hp, he⟩
  · intro i hi
    rcases h6 with ⟨e0, _⟩ | ⟨x, rest, e0, ec, e1, e3, e2⟩ | ⟨e0, _⟩ | ⟨e0, _⟩
    · rw [e0] at hi; cases hi
    · rw [e0] at hi
      have hi : x.id = i := by injection hi with hi; injection hi with hi; injection hi
      refine ⟨ec, ?_, ?_, ?_⟩
      · rw [hcount, h.count, h1, e1, e2, List.countP_append, List.countP_append, List.countP_cons,
          List.countP_cons]
        have := countP_age_le now pre
        have e : isWaiting x = false := by simp [isWaiting, e3]
        rw [e]
        simp [isWaiting]; simp [isWaiting] at this; omega
      · rw [e2, ← hi]; simp
      · rw [h1, e1, ← hi, ← e3]; simp
    · rw [e0] at hi; cases hi
    · rw [e0] at hi; cases hi
  · intro hn
    have hle := countP_age_le now pre
    have hpp : post'.countP isWaiting = post.countP isWaiting := by
      rcases h6 with ⟨_, e1, e2⟩ | ⟨x, rest, e0, _⟩ | ⟨_, _, e1, _⟩ | ⟨_, e1, _⟩
      · rw [e1, e2]
      · exact absurd e0 (hn _)
      · rw [e1]
      · rw [e1]
    rw [hcount, h.count, h1, List.countP_append, List.countP_append, hpp]; omega

/-- The invariant after the loop, for the record that has seen the result. -/
theorem looped_inv {cfg : Config} {t : Id} {q : Query} {r : Record} (h : Inv cfg t q r)
    {now : Nat} {ps : List Peer} {w : Nat} {st : Option QState} (hl : Looped cfg t now q ps w st)
    (q' : Query) (hc : q'.cfg = q.cfg) (ht : q'.target = q.target) (hp : q'.peers = ps)
    (hw : q'.numWaiting = w) (hq : q.progress ≠ .finished) (st' : QState)
    (hst : ∀ i, st' = .waiting (some i) ↔ st = some (.waiting (some i)))
    (hfin : q'.progress = .finished ↔ st' = .finished) :
    Inv cfg t q' (r.see cfg (.polled now st')) := by
  have hov : r.over = false := by
    cases hr : r.over with
    | false => rfl
    | true => exact absurd (h.over.mp hr) hq
  have hpend : ∀ x ∈ r.pending.filter (fun x => decide (now < x.2)),
      ∃ p ∈ ps, p.id = x.1 ∧ p.state = .waiting x.2 := by
    intro x hx
    obtain ⟨hx, hlt⟩ := List.mem_filter.mp hx
    have hlt : now < x.2 := of_decide_eq_true hlt
    obtain ⟨p0, hp0, he, hs⟩ := h.pending x hx
    obtain ⟨p, hp1, hpe⟩ := hl.back p0 hp0
    obtain ⟨p1, hp1', he1, hcs⟩ := hl.ids p hp1
    have : p1 = p0 := h.sorted.uniq hp1' hp0 (by rw [he1, hpe])
    subst this
    refine ⟨p, hp1, by rw [hpe, he], ?_⟩
    rcases hcs with rfl | ⟨d, e1, e2, _⟩ | ⟨e1, _⟩
    · exact hs
    · rw [e1] at hs; injection hs with hs; omega
    · rw [e1] at hs; cases hs
  have hknown : ∀ id, (∃ p ∈ q'.peers, p.id = id) ↔ id ∈ r.known := by
    intro id
    rw [hp, ← h.known id]
    constructor
    · rintro ⟨p, hp, rfl⟩
      obtain ⟨p0, h0, he, _⟩ := hl.ids p hp
      exact ⟨p0, h0, he⟩
    · rintro ⟨p0, h0, rfl⟩
      exact hl.back p0 h0
  have hpnd := List.Nodup.sublist (List.Sublist.map (·.1)
    (List.filter_sublist (l := r.pending) (p := fun x => decide (now < x.2)))) h.pendingNodup
  have hcount : q'.numWaiting = q'.peers.countP isWaiting := by rw [hw, hp]; exact hl.count
  have hsorted : Sorted t q'.peers := by rw [hp]; exact hl.sorted
  by_cases hh : ∃ i, st' = .waiting (some i)
  · obtain ⟨i, hi⟩ := hh
    obtain ⟨g1, g2, g3, g4⟩ := hl.handed i ((hst i).mp hi)
    have hni : i ∉ r.askedIds := h.state _ g4
    have hfresh : i ∉ r.answered ∧ i ∉ r.failed :=
      ⟨fun hx => hni (h.answered i hx), fun hx => hni (h.failed i hx)⟩
    subst hi
    simp only [Record.see, hov, Bool.false_eq_true, if_false]
    refine ⟨hc.trans h.cfgEq, ht.trans h.targetEq, hsorted, hknown, ?_, ?_, ?_, ?_,
      h.answeredNodup, ?_, hcount, ?_, ?_, ?_, ?_⟩
    · intro p hp'
      rw [hp] at hp'
      obtain ⟨p0, h0, he, hcs⟩ := hl.ids p hp'
      have hs0 := h.state p0 h0
      rcases hcs with rfl | ⟨d, e1, _, e2⟩ | ⟨e1, e2, e3⟩
      · have hne : p.state = .notContacted → p.id ≠ i := by
          intro hpn he'
          have : p = ⟨i, .waiting (now + cfg.peerTimeout)⟩ := hl.sorted.uniq hp' g3 he'
          rw [this] at hpn; cases hpn
        unfold StateOk at hs0 ⊢
        cases hs : p.state <;> simp only [hs, Record.askedIds, List.map_append,
          List.mem_append] at hs0 hne ⊢ <;> simp_all
      · unfold StateOk at hs0 ⊢
        simp only [e1, he] at hs0
        simp only [e2, Record.askedIds, List.map_append, List.mem_append]
        exact ⟨.inl (List.mem_map.mpr ⟨_, hs0.1, rfl⟩), hs0.2⟩
      · have hpi : p.id = i := by
          have := e3.symm.trans ((hst i).mp rfl)
          injection this with this; injection this with this; injection this
        unfold StateOk
        simp only [e2, List.mem_append]
        rw [hpi]
        exact ⟨.inr (List.mem_singleton.mpr rfl), hfresh.1, hfresh.2⟩
    · intro id hid
      simp only [Record.askedIds, List.map_append, List.mem_append] at hid
      rcases hid with hid | hid
      · exact h.asked id hid
      · simp only [List.map_cons, List.map_nil, List.mem_singleton] at hid
        rw [hid]; exact (h.known i).mp ⟨_, g4, rfl⟩
    · simp only [Record.askedIds, List.map_append, List.nodup_append]
      refine ⟨h.nodup, by simp, ?_⟩
      intro a ha b hb
      simp only [List.map_cons, List.map_nil, List.mem_singleton] at hb
      rw [hb]
      rintro rfl; exact hni ha
    · intro id hid
      simp only [Record.askedIds, List.map_append, List.mem_append]
      exact .inl (h.answered id hid)
    · intro id hid
      simp only [Record.askedIds, List.map_append, List.mem_append]
      exact .inl (h.failed id hid)
    · intro x hx
      rw [hp]
      rcases List.mem_append.mp hx with hx | hx
      · exact hpend x hx
      · rw [List.mem_singleton.mp hx]
        exact ⟨_, g3, rfl, rfl⟩
    · simp only [List.map_append, List.nodup_append]
      refine ⟨hpnd, by simp, ?_⟩
      intro a ha b hb
      simp only [List.map_cons, List.map_nil, List.mem_singleton] at hb
      rw [hb]
      rintro rfl
      obtain ⟨x, hx, rfl⟩ := List.mem_map.mp ha
      obtain ⟨p, hpp, he, hs⟩ := h.pending x (List.mem_filter.mp hx).1
      have := h.sorted.uniq hpp g4 he
      rw [this] at hs; cases hs
    · simp only [hov]
      constructor
      · intro hx; cases hx
      · intro hx; exact absurd (hfin.mp hx) (by simp)
    · have := atCapacity_false h.cfgEq g1
      rw [hw]; omega
  · have hn : ∀ i, st' ≠ .waiting (some i) := fun i hi => hh ⟨i, hi⟩
    have hsee : r.see cfg (.polled now st') =
        { r with pending := r.pending.filter (fun x => decide (now < x.2))
                 over := decide (st' = .finished) } := by
      simp only [Record.see, hov]
      cases st' with
      | waiting x =>
        cases x with
        | none => simp [hov]
        | some i => exact absurd rfl (hn i)
      | atCapacity => simp [hov]
      | validating p => simp [hov]
      | finished => simp
    rw [hsee]
    refine ⟨hc.trans h.cfgEq, ht.trans h.targetEq, hsorted, hknown, ?_, h.asked, h.nodup, h.answered,
      h.answeredNodup, h.failed, hcount, ?_, hpnd, ?_, ?_⟩
    · intro p hp'
      rw [hp] at hp'
      obtain ⟨p0, h0, he, hcs⟩ := hl.ids p hp'
      have hs0 := h.state p0 h0
      rcases hcs with rfl | ⟨d, e1, _, e2⟩ | ⟨e1, e2, e3⟩
      · exact hs0
      · unfold StateOk at hs0 ⊢
        simp only [e1, he] at hs0
        simp only [e2]
        exact ⟨List.mem_map.mpr ⟨_, hs0.1, rfl⟩, hs0.2⟩
      · exact absurd ((hst _).mpr e3) (hn _)
    · rw [hp]; exact hpend
    · simp only [decide_eq_true_eq]; exact hfin.symm
    · have := hl.other (fun i hi => hn i ((hst i).mpr hi))
      have := h.bound
      rw [hw]; omega

theorem see_over (cfg : Config) {r : Record} (h : r.over = true) : ∀ x, r.see cfg x = r
  | .polled now st => by simp [Record.see, h]
  | .success p n => by simp [Record.see, Record.expects, h]
  | .failure p => by simp [Record.see, Record.expects, h]
  | .other => rfl

/-- Everything about the last part of `poll`. -/
theorem pollPeers_inv {cfg : Config} {t : Id} {q : Query} {r : Record} (h : Inv cfg t q r)
    (hq : q.progress ≠ .finished) (now : Nat) (c : Option Nat) :
    ∃ q' st, pollPeers q now c = some (q', st) ∧ Inv cfg t q' (r.see cfg (.polled now st)) := by
  obtain ⟨ps, w, st, pre, post, post', h1, hl, h2, h3, h4, h5, h6⟩ := loop_looped h now c
  unfold pollPeers
  rw [h1]
  cases st with
  | none =>
    simp only
    by_cases hw : 0 < w
    · rw [if_pos hw]
      refine ⟨_, _, rfl, ?_⟩
      apply looped_inv h hl <;> first | rfl | exact hq | (intro i; simp) | simp [hq]
    · rw [if_neg hw]
      refine ⟨_, _, rfl, ?_⟩
      apply looped_inv h hl <;> first | rfl | exact hq | (intro i; simp) | simp
  | some s =>
    cases s with
    | finished =>
      refine ⟨_, _, rfl, ?_⟩
      apply looped_inv h hl <;> first | rfl | exact hq | (intro i; simp) | simp
    | waiting x =>
      refine ⟨_, _, rfl, ?_⟩
      apply looped_inv h hl <;> first | rfl | exact hq | (intro i; simp) | simp [hq]
    | atCapacity =>
      refine ⟨_, _, rfl, ?_⟩
      apply looped_inv h hl <;> first | rfl | exact hq | (intro i; simp) | simp [hq]
    | validating x =>
      refine ⟨_, _, rfl, ?_⟩
      apply looped_inv h hl <;> first | rfl | exact hq | (intro i; simp) | simp [hq]

theorem poll_inv {cfg : Config} {t : Id} {q : Query} {r : Record} (h : Inv cfg t q r) (now : Nat) :
    ∃ q' st, poll q now = some (q', st) ∧ Inv cfg t q' (r.see cfg (.polled now st)) := by
  unfold poll
  by_cases hq : q.progress = .finished
  · rw [if_pos hq]
    exact ⟨_, _, rfl, by rw [see_over cfg (h.over.mpr hq)]; exact h⟩
  · rw [if_neg hq]
    exact pollPeers_inv h hq now (some 0)

theorem step_inv {cfg : Config} {t : Id} {q : Query} {r : Record} (h : Inv cfg t q r) (e : Event) :
    ∃ q' o, step q e = some (q', o) ∧ Inv cfg t q' (r.see cfg (nodeSeen (e, o))) := by
  cases e with
  | poll now =>
    obtain ⟨q', st, h1, h2⟩ := poll_inv h now
    exact ⟨q', some st, by simp [step, h1], h2⟩
  | success id resp =>
    obtain ⟨q', h1, h2⟩ := onSuccess_inv h id resp
    exact ⟨q', none, by simp [step, h1], h2⟩
  | failure id =>
    obtain ⟨q', h1, h2⟩ := onFailure_inv h id
    exact ⟨q', none, by simp [step, h1], h2⟩

theorem run_inv {cfg : Config} {t : Id} : ∀ (es : List Event) {q : Query} {r : Record},
    Inv cfg t q r → ∃ q' hist, run q es = some (q', hist) ∧
      Inv cfg t q' ((hist.map nodeSeen).foldl (Record.see cfg) r)
  | [], q, r, h => ⟨q, [], rfl, h⟩
  | e :: es, q, r, h => by
    obtain ⟨q1, o, h1, h2⟩ := step_inv h e
    obtain ⟨q2, hist, h3, h4⟩ := run_inv es h2
    exact ⟨q2, (e, o) :: hist, by simp [run, h1, h3], h4⟩

end Verif.Query
