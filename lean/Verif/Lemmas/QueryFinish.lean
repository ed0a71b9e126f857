import Verif.Lemmas.Query

/-! Helper lemmas: how lookups finish. -/

namespace Verif.Query
open Verif Verif.Props

theorem isSucceeded_age (now : Nat) (p : Peer) : isSucceeded (age now p) = isSucceeded p := by
  rcases age_cases now p with ⟨h, _⟩ | ⟨t, h1, _, h3⟩
  · rw [h]
  · rw [h3]; simp [isSucceeded, h1]

def succIds (l : List Peer) : List Id :=
  l.filterMap (fun p => if p.state = .succeeded then some p.id else none)

theorem intoResult_eq (q : Query) : intoResult q = (succIds q.peers).take q.cfg.numResults := rfl

theorem mem_succIds {l : List Peer} {id : Id} :
    id ∈ succIds l ↔ ⟨id, .succeeded⟩ ∈ l := by
  unfold succIds
  rw [List.mem_filterMap]
  constructor
  · rintro ⟨p, hp, h⟩
    by_cases hs : p.state = .succeeded
    · rw [if_pos hs] at h
      injection h with h
      rw [← h, ← hs]; exact hp
    · rw [if_neg hs] at h; cases h
  · intro h
    exact ⟨_, h, by simp⟩

theorem succIds_sorted {t : Id} {l : List Peer} (h : Sorted t l) :
    (succIds l).Pairwise (fun a b => xorDistance a t < xorDistance b t) := by
  unfold succIds
  rw [List.pairwise_filterMap]
  refine List.Pairwise.imp ?_ h
  intro a b hab x hx y hy
  have e : ∀ (p : Peer) (z : Id), (if p.state = .succeeded then some p.id else none) = some z →
      p.id = z := by
    intro p z hz
    by_cases hs : p.state = .succeeded
    · rw [if_pos hs] at hz; exact Option.some.inj hz
    · rw [if_neg hs] at hz; cases hz
  rw [← e a x hx, ← e b y hy]; exact hab

theorem length_succIds : ∀ l : List Peer, (succIds l).length = l.countP isSucceeded
  | [] => rfl
  | p :: l => by
    have ih := length_succIds l
    unfold succIds at ih ⊢
    rw [List.filterMap_cons, List.countP_cons]
    by_cases hs : p.state = .succeeded
    · have hb : isSucceeded p = true := decide_eq_true hs
      rw [if_pos hs, hb, if_pos rfl]
      simp only [List.length_cons]; rw [ih]
    · have hb : isSucceeded p = false := decide_eq_false hs
      rw [if_neg hs, hb, if_neg (by simp)]
      simp only; rw [ih]; rfl

theorem succIds_append (a b : List Peer) : succIds (a ++ b) = succIds a ++ succIds b := by
  unfold succIds; rw [List.filterMap_append]

/-- The lookup finished for a reason: every other peer it could still hear from is farther than
all results. -/
def FinishOk (cfg : Config) (t : Id) (q : Query) (r : Record) : Prop :=
  r.over = true → ∀ id ∈ r.known, (id ∉ r.askedIds ∨ id ∈ r.pending.map (·.1)) →
    (intoResult q).length = cfg.numResults ∧
      ∀ x ∈ intoResult q, xorDistance x t < xorDistance id t

theorem age_state_ne (now : Nat) {p : Peer} (h : p.state ≠ .notContacted) :
    (age now p).state ≠ .notContacted := by
  rcases age_cases now p with ⟨e, _⟩ | ⟨t, _, _, e⟩
  · rw [e]; exact h
  · rw [e]; simp

theorem not_asked_state {r : Record} {p : Peer} (h : StateOk r p) (hn : p.id ∉ r.askedIds) :
    p.state = .notContacted := by
  unfold StateOk at h
  cases hs : p.state with
  | notContacted => rfl
  | waiting t => rw [hs] at h; exact absurd (List.mem_map.mpr ⟨_, h.1, rfl⟩) hn
  | unresponsive => rw [hs] at h; exact absurd h.1 hn
  | failed => rw [hs] at h; exact absurd h.1 hn
  | succeeded => rw [hs] at h; exact absurd h.1 hn

/-- A peer still to hear from is not contacted or waiting. -/
theorem open_state {cfg : Config} {t : Id} {q : Query} {r : Record} (h : Inv cfg t q r) {id : Id}
    (hk : id ∈ r.known) (ho : id ∉ r.askedIds ∨ id ∈ r.pending.map (·.1)) :
    ∃ p ∈ q.peers, p.id = id ∧ (p.state = .notContacted ∨ isWaiting p = true) := by
  obtain ⟨p, hp, he⟩ := (h.known id).mpr hk
  rcases ho with ho | ho
  · exact ⟨p, hp, he, .inl (not_asked_state (h.state p hp) (by rw [he]; exact ho))⟩
  · obtain ⟨x, hx, hxe⟩ := List.mem_map.mp ho
    obtain ⟨p', hp', he', hs⟩ := h.pending x hx
    exact ⟨p', hp', by rw [he', hxe], .inr (by simp [isWaiting, hs])⟩

theorem poll_finishOk {cfg : Config} {t : Id} {q q' : Query} {r : Record} (h : Inv cfg t q r)
    (hf : FinishOk cfg t q r) {now : Nat} {st : QState} (hp : poll q now = some (q', st)) :
    FinishOk cfg t q' (r.see cfg (.polled now st)) := by
  unfold poll at hp
  by_cases hq : q.progress = .finished
  · rw [if_pos hq] at hp
    injection hp with hp; injection hp with h1 h2
    subst h1 h2
    rw [see_over cfg (h.over.mpr hq)]; exact hf
  · rw [if_neg hq] at hp
    obtain ⟨q1, st1, e1, hinv⟩ := pollPeers_inv h hq now (some 0)
    rw [hp] at e1
    injection e1 with e1; injection e1 with e1 e2
    subst e1 e2
    intro hov id hk ho
    obtain ⟨p, hpm, hpe, hps⟩ := open_state hinv hk ho
    obtain ⟨ps, w, st', pre, post, post', h1, hl, h2, h3, h4, h5, h6⟩ := loop_looped h now (some 0)
    unfold pollPeers at hp
    rw [h1] at hp
    have hfin := hinv.over.mp hov
    rcases h6 with ⟨e0, e1, e2⟩ | ⟨x, rest, e0, _⟩ | ⟨e0, _⟩ | ⟨e0, e1, x, rest, n, e2, e3, e4, e5, e6⟩
    · subst e0
      simp only at hp
      by_cases hw : 0 < w
      · rw [if_pos hw] at hp
        injection hp with hp; injection hp with g1 g2
        subst g1
        exact absurd hfin hq
      · rw [if_neg hw] at hp
        injection hp with hp; injection hp with g1 g2
        subst g1
        simp only at hpm
        exfalso
        rcases hps with hps | hps
        · rw [h3, e2, List.append_nil] at hpm
          obtain ⟨p0, hp0, rfl⟩ := List.mem_map.mp hpm
          exact age_state_ne now (h4 p0 hp0) hps
        · have := hl.count
          have : 0 < ps.countP isWaiting := List.countP_pos_iff.mpr ⟨p, hpm, hps⟩
          omega
    · subst e0
      injection hp with hp; injection hp with g1 g2
      subst g1
      exact absurd hfin hq
    · subst e0
      injection hp with hp; injection hp with g1 g2
      subst g1
      exact absurd hfin hq
    · subst e0
      injection hp with hp; injection hp with g1 g2
      subst g1
      simp only at hpm
      have hn : n = 0 := by injection e4 with e4; exact e4.symm
      have hsplit : ps = (pre.map (age now) ++ [x]) ++ rest := by
        rw [h3, e1, e2]; simp
      have hcnt : (pre.map (age now)).countP isSucceeded = pre.countP isSucceeded := by
        rw [List.countP_map]
        apply List.countP_congr
        intro y _
        simp only [Function.comp, isSucceeded_age]
      have hlen : cfg.numResults ≤ (succIds (pre.map (age now) ++ [x])).length := by
        rw [length_succIds, List.countP_append, hcnt]
        have : [x].countP isSucceeded = 1 := by simp [isSucceeded, e3]
        omega
      have hres : intoResult { q with peers := ps, numWaiting := w, progress := .finished } =
          (succIds (pre.map (age now) ++ [x])).take cfg.numResults := by
        rw [intoResult_eq]
        simp only
        rw [h.cfgEq, hsplit, succIds_append, List.take_append_of_le_length hlen]
      rw [hres]
      refine ⟨by rw [List.length_take]; omega, ?_⟩
      intro y hy
      have hy := mem_succIds.mp (List.mem_of_mem_take hy)
      have hsorted := hl.sorted
      rw [hsplit] at hsorted
      have := (List.pairwise_append.mp hsorted).2.2 _ hy p
      rw [← hpe]
      apply this
      rw [hsplit] at hpm
      rcases List.mem_append.mp hpm with hpm | hpm
      · exfalso
        rcases List.mem_append.mp hpm with hpm | hpm
        · rcases hps with hps | hps
          · obtain ⟨p0, hp0, rfl⟩ := List.mem_map.mp hpm
            exact age_state_ne now (h4 p0 hp0) hps
          · rw [e5 p hpm] at hps; cases hps
        · rw [List.mem_singleton.mp hpm] at hps
          rcases hps with hps | hps
          · rw [e3] at hps; cases hps
          · simp [isWaiting, e3] at hps
      · exact hpm

theorem see_report_over (cfg : Config) (r : Record) (x : Seen)
    (hx : ∀ now st, x ≠ .polled now st) : (r.see cfg x).over = r.over := by
  cases x with
  | polled now st => exact absurd rfl (hx now st)
  | success p n => simp only [Record.see]; split <;> rfl
  | failure p => simp only [Record.see]; split <;> rfl
  | other => rfl

theorem settle_finished {q : Query} (h : q.progress = .finished) (id : Id) (s : PeerState) :
    settle q id s = .ignored := by simp [settle, h]

theorem step_finished {q : Query} (h : q.progress = .finished) (e : Event) :
    ∃ o, step q e = some (q, o) ∧ ∀ now, e = .poll now → o = some .finished := by
  cases e with
  | poll now => exact ⟨some .finished, by simp [step, poll, h], fun _ _ => rfl⟩
  | success id resp =>
    exact ⟨none, by simp [step, onSuccess, settle_finished h], fun _ hh => by cases hh⟩
  | failure id =>
    exact ⟨none, by simp [step, onFailure, settle_finished h], fun _ hh => by cases hh⟩

theorem step_full {cfg : Config} {t : Id} {q : Query} {r : Record} (h : Inv cfg t q r)
    (hf : FinishOk cfg t q r) (e : Event) :
    ∃ q' o, step q e = some (q', o) ∧ Inv cfg t q' (r.see cfg (nodeSeen (e, o))) ∧
      FinishOk cfg t q' (r.see cfg (nodeSeen (e, o))) := by
  by_cases hq : q.progress = .finished
  · obtain ⟨o, h1, _⟩ := step_finished hq e
    refine ⟨q, o, h1, ?_, ?_⟩
    · rw [see_over cfg (h.over.mpr hq)]; exact h
    · rw [see_over cfg (h.over.mpr hq)]; exact hf
  · obtain ⟨q', o, h1, h2⟩ := step_inv h e
    refine ⟨q', o, h1, h2, ?_⟩
    have hov : r.over ≠ true := fun hh => hq (h.over.mp hh)
    cases e with
    | poll now =>
      obtain ⟨q2, st, h3, _⟩ := poll_inv h now
      simp only [step, h3, Option.map_some, Option.some.injEq, Prod.mk.injEq] at h1
      obtain ⟨h1a, h1b⟩ := h1
      subst h1a h1b
      exact poll_finishOk h hf h3
    | success id resp =>
      intro hh
      have hseen : ∀ now st, nodeSeen (.success id resp, o) ≠ .polled now st := by
        intro now st; simp [nodeSeen]
      rw [see_report_over cfg r _ hseen] at hh
      exact absurd hh hov
    | failure id =>
      intro hh
      have hseen : ∀ now st, nodeSeen (.failure id, o) ≠ .polled now st := by
        intro now st; simp [nodeSeen]
      rw [see_report_over cfg r _ hseen] at hh
      exact absurd hh hov

theorem run_full {cfg : Config} {t : Id} : ∀ (es : List Event) {q : Query} {r : Record},
    Inv cfg t q r → FinishOk cfg t q r → ∃ q' hist, run q es = some (q', hist) ∧
      Inv cfg t q' ((hist.map nodeSeen).foldl (Record.see cfg) r) ∧
      FinishOk cfg t q' ((hist.map nodeSeen).foldl (Record.see cfg) r)
  | [], q, r, h, hf => ⟨q, [], rfl, h, hf⟩
  | e :: es, q, r, h, hf => by
    obtain ⟨q1, o, h1, h2, hf2⟩ := step_full h hf e
    obtain ⟨q2, hist, h3, h4, hf4⟩ := run_full es h2 hf2
    exact ⟨q2, (e, o) :: hist, by simp [run, h1, h3], h4, hf4⟩

theorem run_finished : ∀ (es : List Event) {q : Query}, q.progress = .finished →
    ∃ hist, run q es = some (q, hist) ∧ hist.map (·.1) = es ∧
      ∀ x ∈ hist, ∀ now, x.1 = .poll now → x.2 = some .finished
  | [], q, _ => ⟨[], rfl, rfl, fun x hx => by cases hx⟩
  | e :: es, q, h => by
    obtain ⟨o, h1, h2⟩ := step_finished h e
    obtain ⟨hist, h3, h4, h5⟩ := run_finished es h
    refine ⟨(e, o) :: hist, by simp [run, h1, h3], by simp [h4], ?_⟩
    intro x hx now hxe
    rcases List.mem_cons.mp hx with rfl | hx
    · exact h2 now hxe
    · exact h5 x hx now hxe

/-! ### When the last part of `poll` finishes -/

theorem nodup_fst {l : List (Id × Nat)} (h : (l.map (·.1)).Nodup) {a : Id} {s t : Nat}
    (h1 : (a, s) ∈ l) (h2 : (a, t) ∈ l) : s = t := by
  induction l with
  | nil => cases h1
  | cons x xs ih =>
    rw [List.map_cons, List.nodup_cons] at h
    rcases List.mem_cons.mp h1 with e1 | e1 <;> rcases List.mem_cons.mp h2 with e2 | e2
    · have := e1.trans e2.symm; injection this
    · exfalso; apply h.1; rw [← e1]; exact List.mem_map.mpr ⟨_, e2, rfl⟩
    · exfalso; apply h.1; rw [← e2]; exact List.mem_map.mpr ⟨_, e1, rfl⟩
    · exact ih h.2 e1 e2

/-- Every known peer answered, failed, or was asked and its waiting time has passed. -/
def AllDone (r : Record) (now : Nat) : Prop :=
  ∀ id ∈ r.known, id ∈ r.answered ∨ id ∈ r.failed ∨ ∃ d, (id, d) ∈ r.asked ∧ d ≤ now

theorem allDone_state {cfg : Config} {t : Id} {q : Query} {r : Record} (h : Inv cfg t q r)
    {now : Nat} (hd : AllDone r now) {p : Peer} (hp : p ∈ q.peers) :
    p.state ≠ .notContacted ∧ ∀ d, p.state = .waiting d → d ≤ now := by
  have hs := h.state p hp
  have hk := hd p.id ((h.known p.id).mp ⟨p, hp, rfl⟩)
  unfold StateOk at hs
  constructor
  · intro hn
    simp only [hn] at hs
    rcases hk with hk | hk | ⟨d, hk, _⟩
    · exact hs (h.answered _ hk)
    · exact hs (h.failed _ hk)
    · exact hs (List.mem_map.mpr ⟨_, hk, rfl⟩)
  · intro d hw
    simp only [hw] at hs
    rcases hk with hk | hk | ⟨d', hk, hle⟩
    · exact absurd hk hs.2.1
    · exact absurd hk hs.2.2
    · rw [nodup_fst h.nodup hs.1 hk]; exact hle

theorem pollPeers_allDone {cfg : Config} {t : Id} {q : Query} {r : Record} (h : Inv cfg t q r)
    {now : Nat} (hd : AllDone r now) (c : Option Nat) :
    ∃ q', pollPeers q now c = some (q', .finished) ∧ q'.progress = .finished := by
  obtain ⟨ps, w, st, pre, post, post', h1, hl, h2, h3, h4, h5, h6⟩ := loop_looped h now c
  have hst : ∀ p ∈ q.peers, p.state ≠ .notContacted ∧ ∀ d, p.state = .waiting d → d ≤ now :=
    fun p hp => allDone_state h hd hp
  unfold pollPeers
  rw [h1]
  rcases h6 with ⟨e0, e1, e2⟩ | ⟨x, rest, e0, _, e1, e3, _⟩ | ⟨e0, _, _, x, rest, e1, e3⟩ | ⟨e0, _⟩
  · subst e0
    simp only
    have : w = 0 := by
      rw [hl.count, List.countP_eq_zero]
      intro p hp
      obtain ⟨p0, hp0, _, hc⟩ := hl.ids p hp
      rw [h3, e2, List.append_nil] at hp
      obtain ⟨p1, hp1, rfl⟩ := List.mem_map.mp hp
      rcases age_cases now p1 with ⟨e, e'⟩ | ⟨d, _, _, e⟩
      · rw [e]
        intro hw
        cases hps : p1.state with
        | waiting d =>
          have hle := (hst p1 (by rw [h2, e1, List.append_nil]; exact hp1)).2 d hps
          have := e' d hps
          omega
        | _ => simp [isWaiting, hps] at hw
      · rw [e]; simp [isWaiting]
    rw [if_neg (by omega)]
    exact ⟨_, rfl, rfl⟩
  · exact absurd e3 (hst x (by rw [h2, e1]; simp)).1
  · have hx := hst x (by rw [h2, e1]; simp)
    rcases e3 with e3 | ⟨d, e3, e4⟩
    · exact absurd e3 hx.1
    · have := hx.2 d e3; omega
  · subst e0
    exact ⟨_, rfl, rfl⟩

/-- Nobody is being waited for: `poll` hands out a peer or finishes. -/
theorem pollPeers_free {cfg : Config} {t : Id} {q : Query} {r : Record} (h : Inv cfg t q r)
    (hp : 0 < cfg.parallelism) (hn : 0 < cfg.numResults)
    (hd : ∀ id ∈ r.askedIds, id ∈ r.answered ∨ id ∈ r.failed)
    (hq : q.progress ≠ .finished) (now : Nat) (c : Option Nat) :
    ∃ q' st, pollPeers q now c = some (q', st) ∧
      (st = .finished ∨ ∃ p ∈ r.known, st = .waiting (some p)) := by
  have hw : ∀ p ∈ q.peers, isWaiting p = false := by
    intro p hp'
    have hs := h.state p hp'
    unfold StateOk at hs
    cases hps : p.state with
    | waiting d =>
      simp only [hps] at hs
      rcases hd p.id (List.mem_map.mpr ⟨_, hs.1, rfl⟩) with h1 | h1
      · exact absurd h1 hs.2.1
      · exact absurd h1 hs.2.2
    | _ => simp [isWaiting, hps]
  have h0 : q.numWaiting = 0 := by
    rw [h.count, List.countP_eq_zero]
    intro p hp'; rw [hw p hp']; simp
  have hcap : atCapacity q = false := by
    unfold atCapacity
    rw [h.cfgEq, h0]
    cases hpr : q.progress with
    | finished => exact absurd hpr hq
    | stalled => simp; omega
    | iterating n => simp; omega
  obtain ⟨ps, w, st, pre, post, post', h1, hl, h2, h3, h4, h5, h6⟩ := loop_looped h now c
  unfold pollPeers
  rw [h1]
  rcases h6 with ⟨e0, e1, e2⟩ | ⟨x, rest, e0, _, e1, e3, _⟩ | ⟨e0, ec, _⟩ | ⟨e0, _⟩
  · subst e0
    have := hl.other (by simp)
    simp only
    rw [if_neg (by omega)]
    exact ⟨_, _, rfl, .inl rfl⟩
  · subst e0
    exact ⟨_, _, rfl, .inr ⟨x.id, (h.known _).mp ⟨x, by rw [h2, e1]; simp, rfl⟩, rfl⟩⟩
  · rw [hcap] at ec; cases ec
  · subst e0
    exact ⟨_, _, rfl, .inl rfl⟩

theorem nodup_subset_length {α : Type} [DecidableEq α] : ∀ {a b : List α}, a.Nodup →
    (∀ x ∈ a, x ∈ b) → a.length ≤ b.length
  | [], _, _, _ => Nat.zero_le _
  | x :: xs, b, hn, hs => by
    rw [List.nodup_cons] at hn
    have hx := hs x List.mem_cons_self
    have := nodup_subset_length (b := b.erase x) hn.2 (fun y hy => by
      rw [List.mem_erase_of_ne]
      · exact hs y (List.mem_cons_of_mem _ hy)
      · rintro rfl; exact hn.1 hy)
    rw [List.length_erase_of_mem hx] at this
    have : 0 < b.length := List.length_pos_of_mem hx
    simp only [List.length_cons]
    omega

end Verif.Query
