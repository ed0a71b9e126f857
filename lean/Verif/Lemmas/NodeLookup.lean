import Verif.Props.NodeLookupSpec
import Verif.Props.FindNodeDistances
import Verif.Props.Query

namespace Verif.NodeLookup
open Verif.Props hiding Seen
open Verif.Props.NodeLookups
open Verif.Query (Inv Par FinishOk QState intoResult)
open Verif.Lookup (Enr)

/-! ## Histories -/

theorem log_append (c : Ctx) (peers : List Enr) (h : History) (x : Ev × List Out) :
    log c peers (h ++ [x]) = (seen x).foldl (Record.see c.cfg) (log c peers h) := by
  simp [log, List.flatMap_append, List.foldl_append]

theorem named_append (h : History) (x : Ev × List Out) : named (h ++ [x]) = named h ++ named [x] := by
  simp [named, List.flatMap_append]

theorem firstPoll_append : ∀ (h : History) (x : Ev × List Out), firstPoll (h ++ [x]) =
    match firstPoll h with
    | some n => some n
    | none => match x.1 with
      | .poll now _ => some now
      | .nodes _ _ => none
  | [], (e, o) => by cases e <;> rfl
  | (e, o) :: h, x => by
    cases e with
    | poll n k => rfl
    | nodes a b => simp only [List.cons_append, firstPoll]; exact firstPoll_append h x

/-! ## The records that are kept -/

theorem keep_sub {self : Id} {l : List Enr} {e x : Enr} (h : x ∈ keep self l e) : x ∈ l ∨ x = e := by
  unfold keep at h
  split at h
  · exact .inl h
  · simpa using h

theorem keep_mono {self : Id} {l : List Enr} {e x : Enr} (h : x ∈ l) : x ∈ keep self l e := by
  unfold keep
  split
  · exact h
  · exact List.mem_append_left _ h

theorem keep_has (self : Id) (l : List Enr) (e : Enr) : ∃ x ∈ keep self l e, x.id = e.id := by
  unfold keep
  split
  · rename_i h
    obtain ⟨u, hu, h1⟩ := List.any_eq_true.mp h
    simp only [Bool.and_eq_true, beq_iff_eq] at h1
    exact ⟨u, hu, h1.1⟩
  · exact ⟨e, by simp, rfl⟩

theorem foldl_keep_mono {self : Id} : ∀ (es : List Enr) (l : List Enr) {x : Enr}, x ∈ l → x ∈ es.foldl (keep self) l
  | [], _, _, h => h
  | e :: es, _, _, h => foldl_keep_mono es _ (keep_mono h)

theorem foldl_keep_has {self : Id} : ∀ (es : List Enr) (l : List Enr), ∀ e ∈ es, ∃ x ∈ es.foldl (keep self) l, x.id = e.id
  | [], _, _, h => (nomatch h)
  | e :: es, l, y, h => by
    rcases List.mem_cons.mp h with rfl | h
    · obtain ⟨x, hx, h1⟩ := keep_has self l y
      exact ⟨x, foldl_keep_mono es _ hx, h1⟩
    · exact foldl_keep_has es _ y h

theorem foldl_keep_sub {self : Id} : ∀ (es : List Enr) (l : List Enr) {x : Enr}, x ∈ es.foldl (keep self) l →
    x ∈ l ∨ x ∈ es
  | [], _, _, h => .inl h
  | e :: es, l, x, h => by
    rcases foldl_keep_sub es _ h with h | h
    · rcases keep_sub h with h | h
      · exact .inl h
      · exact .inr (h ▸ List.mem_cons_self)
    · exact .inr (List.mem_cons_of_mem _ h)

/-- Of each node but the node itself there is one record, the first that came up. -/
def First (self : Id) (l all : List Enr) : Prop :=
  ∀ e ∈ l, e.id ≠ self → all.find? (fun x => x.id == e.id) = some e

theorem find_append_some {p : Enr → Bool} {a b : List Enr} {e : Enr} (h : a.find? p = some e) :
    (a ++ b).find? p = some e := by
  rw [List.find?_append, h]; rfl

theorem find_nodup : ∀ {l : List Enr}, (l.map Enr.id).Nodup → ∀ {e : Enr}, e ∈ l →
    l.find? (fun x => x.id == e.id) = some e
  | a :: l, hn, e, he => by
    rw [List.map_cons, List.nodup_cons] at hn
    rw [List.find?_cons]
    by_cases ha : a.id = e.id
    · rcases List.mem_cons.mp he with rfl | he
      · simp
      · exact absurd (List.mem_map.mpr ⟨e, he, ha.symm⟩) hn.1
    · rcases List.mem_cons.mp he with rfl | he
      · exact absurd rfl ha
      · have : (a.id == e.id) = false := by simpa using ha
        rw [this]
        exact find_nodup hn.2 he

theorem foldl_keep_first {self : Id} : ∀ (es : List Enr) (l all : List Enr), First self l all →
    (∀ e ∈ all, ∃ x ∈ l, x.id = e.id) → First self (es.foldl (keep self) l) (all ++ es)
  | [], l, all, h, _ => by simpa using h
  | e :: es, l, all, h, ha => by
    have hall : all ++ e :: es = (all ++ [e]) ++ es := by simp
    rw [hall]
    refine foldl_keep_first es _ _ ?_ ?_
    · intro y hy hne
      rcases keep_sub hy with hy' | rfl
      · exact find_append_some (h y hy' hne)
      · by_cases hin : y ∈ l
        · exact find_append_some (h y hin hne)
        · unfold keep at hy
          split at hy
          · exact absurd hy hin
          · rename_i hn
            have hno : ∀ u ∈ l, u.id ≠ y.id := by
              intro u hu he
              refine hn (List.any_eq_true.mpr ⟨u, hu, ?_⟩)
              simp [he, hne]
            rw [List.find?_append, List.find?_eq_none.mpr]
            · simp
            · intro x hx he
              simp only [beq_iff_eq] at he
              obtain ⟨u, hu, h1⟩ := ha x hx
              exact hno u hu (h1.trans he)
    · intro y hy
      rcases List.mem_append.mp hy with hy | hy
      · obtain ⟨x, hx, h1⟩ := ha y hy
        exact ⟨x, keep_mono hx, h1⟩
      · rw [List.mem_singleton.mp hy]
        exact keep_has self l e

/-! ## The records of the answer -/

theorem mem_swapRemove {l : List Enr} {i : Nat} {x : Enr} (h : x ∈ swapRemove l i) : x ∈ l := by
  unfold swapRemove at h
  cases hl : l.getLast? with
  | none => rw [hl] at h; exact h
  | some last =>
    rw [hl] at h
    rcases List.mem_or_eq_of_mem_set ((List.dropLast_sublist _).subset h) with h | rfl
    · exact h
    · exact List.mem_of_getLast? hl

theorem swapRemove_mem {l : List Enr} {i : Nat} {e x : Enr} (hi : l[i]? = some e) (hx : x ∈ l) (hne : x ≠ e) :
    x ∈ swapRemove l i := by
  unfold swapRemove
  obtain ⟨hlt, he⟩ := List.getElem?_eq_some_iff.mp hi
  cases hl : l.getLast? with
  | none => rw [List.getLast?_eq_none_iff.mp hl] at hx; cases hx
  | some last =>
    simp only
    obtain ⟨j, hj, hje⟩ := List.mem_iff_getElem.mp hx
    have hlast : l[l.length - 1]? = some last := by rw [← List.getLast?_eq_getElem?]; exact hl
    obtain ⟨hl1, hl2⟩ := List.getElem?_eq_some_iff.mp hlast
    have hij : i ≠ j := by
      rintro rfl
      exact hne (hje.symm.trans he)
    by_cases hjl : j = l.length - 1
    · subst hjl
      have hii : i < l.length - 1 := by omega
      refine List.mem_iff_getElem.mpr ⟨i, by simp [List.length_dropLast]; omega, ?_⟩
      simp only [List.getElem_dropLast, List.getElem_set_self]
      rw [← hl2, hje]
    · refine List.mem_iff_getElem.mpr ⟨j, by simp [List.length_dropLast]; omega, ?_⟩
      simp only [List.getElem_dropLast]
      rw [List.getElem_set_ne hij]
      exact hje

theorem resultEnrs_spec (known : Id → Option Enr) : ∀ (ids : List Id) (l : List Enr), ids.Nodup →
    (∀ id ∈ ids, ∃ e ∈ l, e.id = id) →
    (resultEnrs known l ids).map Enr.id = ids ∧ ∀ e ∈ resultEnrs known l ids, e ∈ l
  | [], _, _, _ => ⟨rfl, fun _ h => (nomatch h)⟩
  | id :: ids, l, hn, h => by
    obtain ⟨e0, he0, h0⟩ := h id List.mem_cons_self
    have hn' := List.nodup_cons.mp hn
    unfold resultEnrs
    cases hf : l.findIdx? (fun e => e.id == id) with
    | none =>
      have := List.findIdx?_eq_none_iff.mp hf e0 he0
      simp [h0] at this
    | some i =>
      obtain ⟨hi, h1, _⟩ := List.findIdx?_eq_some_iff_getElem.mp hf
      simp only [beq_iff_eq] at h1
      simp only [List.getElem?_eq_getElem hi]
      have ih := resultEnrs_spec known ids (swapRemove l i) hn'.2 (by
        intro id' hid
        obtain ⟨x, hx, hx1⟩ := h id' (List.mem_cons_of_mem _ hid)
        refine ⟨x, swapRemove_mem (List.getElem?_eq_getElem hi) hx ?_, hx1⟩
        rintro rfl
        rw [h1] at hx1
        subst hx1
        exact hn'.1 hid)
      refine ⟨by rw [List.map_cons, ih.1, h1], ?_⟩
      intro e he
      rcases List.mem_cons.mp he with rfl | he
      · exact List.getElem_mem hi
      · exact mem_swapRemove (ih.2 e he)

/-! ## Distances -/

theorem distances_ok {target p : Id} (hne : target ≠ p) {n : Nat} (hn : n ≤ 127) :
    ∃ ds, findnodeLog2Distance target p n = .ok ds ∧ GoodDistances target p n ds := by
  rcases Nat.eq_zero_or_pos n with rfl | h0
  · have hpos : xorDistance p target ≠ 0 := fun h => hne (xorDistance_eq_zero.1 h).symm
    obtain ⟨d, hd⟩ : ∃ d, distLog2 (xorDistance p target) = some d := by
      cases hd : distLog2 (xorDistance p target) with
      | none => exact absurd (distLog2_eq_none.1 hd) hpos
      | some d => exact ⟨d, rfl⟩
    refine ⟨[], C17_zero target p hne, rfl, List.nodup_nil, fun _ h => (nomatch h), d, hd, fun h => by omega, fun _ _ _ _ h => (nomatch h)⟩
  · obtain ⟨d, rest, h1, h2, h3, h4, h5, h6⟩ := C17_distances target p hne n h0 hn
    refine ⟨_, h2, h3, h4, h5, d, h1, fun _ => rfl, ?_⟩
    intro x hx hxn y hy
    have := h6 x hx hxn y hy
    unfold absDiff at this
    omega

/-! ## Records -/

theorem result_of_inv {cfg : Query.Config} {t : Id} {q : Query.Query} {r : Record} (hi : Inv cfg t q r) :
    (intoResult q).length ≤ cfg.numResults ∧
    (intoResult q).Pairwise (fun a b => xorDistance a t < xorDistance b t) ∧
    (∀ id ∈ intoResult q, id ∈ r.answered) ∧
    (∀ id ∈ r.answered, id ∉ intoResult q → (intoResult q).length = cfg.numResults ∧
      ∀ x ∈ intoResult q, xorDistance x t < xorDistance id t) := by
  rw [Query.intoResult_eq, hi.cfgEq]
  have hsort := Query.succIds_sorted hi.sorted
  refine ⟨by rw [List.length_take]; exact Nat.min_le_left _ _, hsort.sublist (List.take_sublist _ _), ?_, ?_⟩
  · intro id hid
    have hm := Query.mem_succIds.mp (List.mem_of_mem_take hid)
    exact (hi.state _ hm).2.1
  · intro id hid hnot
    obtain ⟨p, hp, rfl⟩ := (hi.known id).mpr (hi.asked id (hi.answered id hid))
    have hps : p.state = .succeeded := by
      have hs := hi.state p hp
      unfold Query.StateOk at hs
      cases hst : p.state with
      | succeeded => rfl
      | notContacted => rw [hst] at hs; exact absurd (hi.answered _ hid) hs
      | waiting t => rw [hst] at hs; exact absurd hid hs.2.1
      | unresponsive => rw [hst] at hs; exact absurd hid hs.2.1
      | failed => rw [hst] at hs; exact absurd hid hs.2.1
    have hmem : p.id ∈ Query.succIds q.peers := Query.mem_succIds.mpr (by rw [← hps]; exact hp)
    have hsplit := List.take_append_drop cfg.numResults (Query.succIds q.peers)
    rw [← hsplit] at hmem hsort
    rcases List.mem_append.mp hmem with hm | hm
    · exact absurd hm hnot
    · have hpos := List.length_pos_of_mem hm
      rw [List.length_drop] at hpos
      refine ⟨by rw [List.length_take]; omega, ?_⟩
      intro x hx
      exact (List.pairwise_append.mp hsort).2.2 x hx p.id hm

/-- A poll that hands nobody out, as the record sees it. -/
theorem see_idle (cfg : Query.Config) {r : Record} (h : r.over = false) (now : Nat) (st : QState)
    (hst : ∀ p, st ≠ .waiting (some p)) :
    let r' := r.see cfg (.polled now (.waiting none))
    r.see cfg (.polled now st) = { r' with over := (r.see cfg (.polled now st)).over } ∧ r'.over = false ∧
      r'.known = r.known ∧ r'.askedIds = r.askedIds ∧ r'.failed = r.failed ∧
      (st ≠ .finished → (r.see cfg (.polled now st)).over = false) ∧
      (st = .finished → (r.see cfg (.polled now st)).over = true) := by
  simp only [Record.see, h, Bool.false_eq_true, if_false]
  cases st with
  | waiting x => cases x with
    | none => simp [Record.askedIds]
    | some p => exact absurd rfl (hst p)
  | _ => simp [Record.askedIds]

theorem see_handed (cfg : Query.Config) {r : Record} (h : r.over = false) (now : Nat) (p : Id) :
    (r.see cfg (.polled now (.waiting (some p)))).over = false ∧
    (r.see cfg (.polled now (.waiting (some p)))).known = r.known ∧
    (r.see cfg (.polled now (.waiting (some p)))).askedIds = r.askedIds ++ [p] ∧
    (r.see cfg (.polled now (.waiting (some p)))).failed = r.failed ∧
    (r.see cfg (.polled now (.waiting (some p)))).answered = r.answered := by
  simp [Record.see, h, Record.askedIds]

/-! ## The invariant -/

structure Open (c : Ctx) (peers : List Enr) (h : History) (s : State) : Prop where
  inv : Inv c.cfg c.target s.q (log c peers h)
  par : Par c.cfg s.q (log c peers h)
  notOver : (log c peers h).over = false
  closed : s.closed = false
  started : s.started = firstPoll h
  untrusted : s.untrusted = (named h).foldl (keep c.self) peers
  known : ∀ id ∈ (log c peers h).known, ∃ e ∈ s.untrusted, e.id = id
  target : c.target ∈ (log c peers h).askedIds → c.target ∈ (log c peers h).failed
  quiet : Quiet h

/-- The target is never among those that answered. -/
theorem Open.target_answered {c : Ctx} {peers : List Enr} {h : History} {s : State} (ho : Open c peers h s) :
    c.target ∉ (log c peers h).answered := by
  intro hm
  have ha := ho.inv.answered _ hm
  have hf := ho.target ha
  obtain ⟨p, hp, he⟩ := (ho.inv.known _).mpr (ho.inv.asked _ ha)
  have hs := ho.inv.state p hp
  unfold Query.StateOk at hs
  rw [he] at hs
  cases hst : p.state <;> rw [hst] at hs
  · exact hs ha
  · exact hs.2.1 hm
  · exact hs.2.1 hm
  · exact hs.2.1 hm
  · exact hs.2.2 hf

theorem start_open {c : Ctx} {peers : List Enr} {s : State} (h : start c peers = .inr s) : Open c peers [] s := by
  unfold start at h
  split at h
  · cases h
  · simp only [Sum.inr.injEq] at h
    subst h
    refine ⟨Query.start_inv _ _ _, Query.start_par _ _ _, rfl, rfl, rfl, rfl, ?_, ?_, fun _ hx => (nomatch hx)⟩
    · intro id hid
      have : id ∈ peers.map Enr.id := List.mem_of_mem_take hid
      obtain ⟨e, he, h1⟩ := List.mem_map.mp this
      exact ⟨e, he, h1⟩
    · intro hm; simp [log, Record.start, Record.askedIds] at hm

theorem quiet_append {h : History} {x : Ev × List Out} (hq : Quiet h) (hx : ∀ l, Out.answer l ∉ x.2) : Quiet (h ++ [x]) := by
  intro y hy
  rcases List.mem_append.mp hy with hy | hy
  · exact hq y hy
  · rw [List.mem_singleton.mp hy]; exact hx

/-- What is right about a poll that closes the lookup. -/
structure Final (c : Ctx) (peers : List Enr) (h : History) (now : Nat) (known : Id → Option Enr) (l : List Enr) : Prop where
  early : ∃ ids, l.map Enr.id = ids ∧ ids.length ≤ c.cfg.numResults ∧
    ids.Pairwise (fun a b => xorDistance a c.target < xorDistance b c.target) ∧
    (∀ id ∈ ids, id ∈ (log c peers h).answered) ∧
    (∀ id ∈ (log c peers h).answered, id ∉ ids → ids.length = c.cfg.numResults ∧
      ∀ x ∈ ids, xorDistance x c.target < xorDistance id c.target) ∧
    (now - (firstPoll h).getD now < c.cfg.overallTimeout → ∀ id ∈ (log c peers h).known,
      (id ∉ (log c peers h).askedIds ∨
        id ∈ ((log c peers (h ++ [(.poll now known, [.answer l])])).pending).map (·.1)) →
      ids.length = c.cfg.numResults ∧ ∀ x ∈ ids, xorDistance x c.target < xorDistance id c.target)
  records : ∀ e ∈ l, e ∈ (named h).foldl (keep c.self) peers

theorem poll_cases {c : Ctx} {peers : List Enr} {h : History} {s : State} (ho : Open c peers h s)
    (hd : c.distances ≤ 127) (now : Nat) (known : Id → Option Enr) (hk : ∀ id e, known id = some e → e.id = id) :
    ∃ s' o, poll c s now known = some (s', o) ∧
      ((Open c peers (h ++ [(.poll now known, o)]) s' ∧
          ((o = [] ∧ now - (firstPoll h).getD now < c.cfg.overallTimeout ∧
              ¬ Query.AllDone (log c peers h) now) ∨
           (∃ p, p ∈ (log c peers h).known ∧ p ∉ (log c peers h).askedIds ∧
              (∀ j ∈ (log c peers h).known, j ∉ (log c peers h).askedIds → j = p ∨
                xorDistance p c.target < xorDistance j c.target) ∧
              ((p = c.target ∧ o = [.skipped p]) ∨
               (p ≠ c.target ∧ ∃ e ds, o = [.request e ds] ∧ e.id = p ∧ GoodDistances c.target p c.distances ds ∧
                 (known p = some e ∨ (known p = none ∧ e ∈ (named h).foldl (keep c.self) peers)))) ∧
              ¬ Query.AllDone (log c peers h) now))) ∨
       (s'.closed = true ∧ ∃ l, o = [.answer l] ∧ Final c peers h now known l)) := by
  have hov := ho.notOver
  have hnf : s.q.progress ≠ .finished := fun hh => by
    have := ho.inv.over.mpr hh; rw [hov] at this; cases this
  obtain ⟨q, st, h1, h2⟩ := Query.poll_inv ho.inv now
  have hf2 := Query.poll_finishOk ho.inv (fun hh => by rw [hov] at hh; cases hh) h1
  have h1' := h1
  unfold Query.poll at h1'
  rw [if_neg hnf] at h1'
  have hpar := Query.pollPeers_par ho.inv ho.par hnf h1'
  obtain ⟨_, _, heff, hval⟩ := Query.pollPeers_effect ho.inv h1'
  have hnd : st ≠ .finished → ¬ Query.AllDone (log c peers h) now := by
    intro hst hall
    obtain ⟨q2, e1, _⟩ := Query.pollPeers_allDone ho.inv hall (some 0)
    rw [h1'] at e1
    simp only [Option.some.injEq, Prod.mk.injEq] at e1
    exact hst e1.2
  have hstarted : ∀ o : List Out, some (s.started.getD now) = firstPoll (h ++ [(.poll now known, o)]) := by
    intro o
    rw [firstPoll_append, ho.started]
    cases firstPoll h <;> rfl
  have hnamed : ∀ o : List Out, named (h ++ [(.poll now known, o)]) = named h := by
    intro o; rw [named_append]; simp [named]
  have hfp : s.started.getD now = (firstPoll h).getD now := by rw [ho.started]
  -- the answer, whenever nobody is handed out
  have hfinal : (∀ p, st ≠ .waiting (some p)) →
      (st ≠ .finished → c.cfg.overallTimeout ≤ now - s.started.getD now) →
      Final c peers h now known (resultEnrs known s.untrusted (intoResult q)) := by
    intro hst hto
    obtain ⟨g1, g2, g3, g4, g5, g6, g7⟩ := see_idle c.cfg hov now st hst
    have hr := result_of_inv h2
    have hans : ((log c peers h).see c.cfg (.polled now st)).answered = (log c peers h).answered :=
      Query.see_polled_answered _ _ _ _
    rw [hans] at hr
    have hnodup : (intoResult q).Nodup := by
      refine hr.2.1.imp ?_
      intro a b hab he
      rw [he] at hab
      exact absurd hab (Nat.lt_irrefl _)
    have hin : ∀ id ∈ intoResult q, ∃ e ∈ s.untrusted, e.id = id := fun id hid =>
      ho.known id (ho.inv.asked _ (ho.inv.answered _ (hr.2.2.1 id hid)))
    have hsp := resultEnrs_spec known _ _ hnodup hin
    refine ⟨⟨intoResult q, hsp.1, hr.1, hr.2.1, hr.2.2.1, hr.2.2.2, ?_⟩, ?_⟩
    · intro htime id hid hopen
      have hfin : st = .finished := by
        by_cases hh : st = .finished
        · exact hh
        · have := hto hh; rw [hfp] at this; omega
      refine hf2 (g7 hfin) id ?_ ?_
      · rw [g1]; simp only; rw [g3]; exact hid
      · rcases hopen with hopen | hopen
        · left
          rw [g1]
          have : ({ (log c peers h).see c.cfg (.polled now (.waiting none)) with
              over := ((log c peers h).see c.cfg (.polled now st)).over } : Record).askedIds =
              ((log c peers h).see c.cfg (.polled now (.waiting none))).askedIds := rfl
          rw [this, g4]
          exact hopen
        · right
          rw [log_append] at hopen
          rw [g1]
          exact hopen
    · intro e he
      rw [← ho.untrusted]
      exact hsp.2 e he
  have hidle : (∀ p, st ≠ .waiting (some p)) → st ≠ .finished →
      Open c peers (h ++ [(.poll now known, [])]) ⟨s.untrusted, some (s.started.getD now), q, false⟩ := by
    intro hst hfin
    obtain ⟨g1, g2, g3, g4, g5, g6, g7⟩ := see_idle c.cfg hov now st hst
    have hrec : log c peers (h ++ [(.poll now known, [])]) = (log c peers h).see c.cfg (.polled now st) := by
      rw [log_append]
      show (log c peers h).see c.cfg (.polled now (.waiting none)) = _
      rw [g1, g6 hfin]
      generalize (log c peers h).see c.cfg (.polled now (.waiting none)) = r' at g2
      cases r'; simp only at g2; rw [g2]
    have hrec' : log c peers (h ++ [(.poll now known, [])]) =
        (log c peers h).see c.cfg (.polled now (.waiting none)) := by rw [log_append]; rfl
    refine ⟨by rw [hrec]; exact h2, by rw [hrec]; exact hpar, by rw [hrec]; exact g6 hfin, rfl, hstarted _, ?_, ?_, ?_,
      quiet_append ho.quiet (by simp)⟩
    · rw [hnamed]; exact ho.untrusted
    · rw [hrec', g3]; exact ho.known
    · rw [hrec', g4, g5]; exact ho.target
  cases st with
  | validating p => exact absurd rfl (hval p)
  | finished =>
    exact ⟨_, _, by unfold poll; simp only [h1]; rfl, .inr ⟨rfl, _, rfl, hfinal (by simp) (by simp)⟩⟩
  | atCapacity =>
    by_cases hto : c.cfg.overallTimeout ≤ now - s.started.getD now
    · exact ⟨_, _, by unfold poll; simp only [h1]; rw [if_pos hto], .inr ⟨rfl, _, rfl, hfinal (by simp) (fun _ => hto)⟩⟩
    · exact ⟨_, _, by unfold poll; simp only [h1]; rw [if_neg hto],
        .inl ⟨hidle (by simp) (by simp), .inl ⟨rfl, by omega, hnd (by simp)⟩⟩⟩
  | waiting x =>
    cases x with
    | none =>
      by_cases hto : c.cfg.overallTimeout ≤ now - s.started.getD now
      · exact ⟨_, _, by unfold poll; simp only [h1]; rw [if_pos hto], .inr ⟨rfl, _, rfl, hfinal (by simp) (fun _ => hto)⟩⟩
      · exact ⟨_, _, by unfold poll; simp only [h1]; rw [if_neg hto],
          .inl ⟨hidle (by simp) (by simp), .inl ⟨rfl, by omega, hnd (by simp)⟩⟩⟩
    | some p =>
      obtain ⟨hp1, hp2, hp3⟩ := heff p rfl
      obtain ⟨g1, g2, g3, g4, g5⟩ := see_handed c.cfg hov now p
      by_cases hself : p = c.target
      · subst hself
        have hdist : findnodeLog2Distance c.target c.target c.distances = .selfTarget := (C17_self_iff _ _ _ hd).mpr rfl
        obtain ⟨q', e1, e2⟩ := Query.onFailure_inv h2 c.target
        have e3 := Query.onFailure_par h2 hpar e1
        have hrec : log c peers (h ++ [(.poll now known, [.skipped c.target])]) =
            ((log c peers h).see c.cfg (.polled now (.waiting (some c.target)))).see c.cfg (.failure c.target) := by
          rw [log_append]; rfl
        have hexp : ((log c peers h).see c.cfg (.polled now (.waiting (some c.target)))).expects c.target = true := by
          rw [Query.expects_iff]
          refine ⟨g1, by rw [g3]; simp, ?_, ?_⟩
          · rw [g5]; exact fun hm => hp2 (ho.inv.answered _ hm)
          · rw [g4]; exact fun hm => hp2 (ho.inv.failed _ hm)
        refine ⟨⟨s.untrusted, some (s.started.getD now), q', false⟩, _, by unfold poll; simp only [h1, hdist, e1]; rfl,
          .inl ⟨⟨by rw [hrec]; exact e2, by rw [hrec]; exact e3, ?_, rfl, hstarted _, by rw [hnamed]; exact ho.untrusted, ?_, ?_,
            quiet_append ho.quiet (by simp)⟩, .inr ⟨c.target, hp1, hp2, hp3, .inl ⟨rfl, rfl⟩, hnd (by simp)⟩⟩⟩
        · rw [hrec, Query.see_report_over _ _ _ (by simp)]; exact g1
        · rw [hrec]
          intro id hid
          have : (((log c peers h).see c.cfg (.polled now (.waiting (some c.target)))).see c.cfg
              (.failure c.target)).known = (log c peers h).known := by
            rw [← g2]; simp only [Record.see.eq_3, hexp, if_true]
          rw [this] at hid
          exact ho.known id hid
        · rw [hrec]
          intro _
          rw [Record.see.eq_3, if_pos hexp]
          simp
      · obtain ⟨ds, hds, hgood⟩ := distances_ok (Ne.symm hself) hd
        obtain ⟨e, he, hid, hfrom⟩ : ∃ e, findEnr s known p = some e ∧ e.id = p ∧
            (known p = some e ∨ (known p = none ∧ e ∈ (named h).foldl (keep c.self) peers)) := by
          unfold findEnr
          cases hkn : known p with
          | some e => exact ⟨e, rfl, hk p e hkn, .inl rfl⟩
          | none =>
            obtain ⟨e, he, h3⟩ := ho.known p hp1
            cases hf : s.untrusted.find? (fun e => e.id == p) with
            | none => exact absurd h3 (by simpa using List.find?_eq_none.mp hf e he)
            | some e' =>
              exact ⟨e', rfl, by simpa using List.find?_some hf, .inr ⟨rfl, ho.untrusted ▸ List.mem_of_find?_eq_some hf⟩⟩
        have hrec : log c peers (h ++ [(.poll now known, [.request e ds])]) =
            (log c peers h).see c.cfg (.polled now (.waiting (some p))) := by
          rw [log_append]; simp only [seen, hid]; rfl
        refine ⟨_, _, by unfold poll; simp only [h1, hds, he]; rfl,
          .inl ⟨⟨by rw [hrec]; exact h2, by rw [hrec]; exact hpar, by rw [hrec]; exact g1, rfl, hstarted _,
            by rw [hnamed]; exact ho.untrusted, ?_, ?_, quiet_append ho.quiet (by simp)⟩,
          .inr ⟨p, hp1, hp2, hp3, .inr ⟨hself, e, ds, rfl, hid, hgood, hfrom⟩, hnd (by simp)⟩⟩⟩
        · rw [hrec, g2]; exact ho.known
        · rw [hrec, g3, g4]
          intro hm
          rcases List.mem_append.mp hm with hm | hm
          · exact ho.target hm
          · exact absurd (List.mem_singleton.mp hm).symm hself

theorem nodes_open {c : Ctx} {peers : List Enr} {h : History} {s : State} (ho : Open c peers h s)
    (source : Enr) (enrs : List Enr) :
    ∃ s', onNodes c s source enrs = some s' ∧ Open c peers (h ++ [(.nodes source enrs, [])]) s' := by
  obtain ⟨q, h1, h2⟩ := Query.onSuccess_inv ho.inv source.id (enrs.map Enr.id)
  have h3 := Query.step_par (e := .success source.id (enrs.map Enr.id)) (o := none) (q' := q) ho.inv ho.par
    (by simp [Query.step, h1])
  have hrec : log c peers (h ++ [(.nodes source enrs, [])]) =
      (log c peers h).see c.cfg (.success source.id (enrs.map Enr.id)) := by rw [log_append]; rfl
  have hnamed : named (h ++ [(.nodes source enrs, [])]) = named h ++ enrs := by
    rw [named_append]; simp [named]
  have hold : ∀ e ∈ s.untrusted, e ∈ enrs.foldl (keep c.self) s.untrusted := fun e he => foldl_keep_mono _ _ he
  have hov : ((log c peers h).see c.cfg (.success source.id (enrs.map Enr.id))).over = false := by
    rw [Query.see_report_over _ _ _ (by simp)]; exact ho.notOver
  refine ⟨{ s with untrusted := enrs.foldl (keep c.self) s.untrusted, q }, by unfold onNodes; rw [h1]; rfl, ⟨by rw [hrec]; exact h2, by rw [hrec]; exact h3, by rw [hrec]; exact hov,
    ho.closed, ?_, ?_, ?_, ?_, quiet_append ho.quiet (by simp)⟩⟩
  · rw [firstPoll_append]
    show s.started = _
    rw [ho.started]
    cases firstPoll h <;> rfl
  · rw [hnamed, List.foldl_append, ← ho.untrusted]
  · rw [hrec]
    intro id hid
    have : id ∈ (log c peers h).known ∨ id ∈ enrs.map Enr.id := by
      simp only [Record.see] at hid
      split at hid
      · simpa using hid
      · exact .inl hid
    rcases this with hid | hid
    · obtain ⟨e, he, h4⟩ := ho.known id hid
      exact ⟨e, hold e he, h4⟩
    · obtain ⟨e, he, rfl⟩ := List.mem_map.mp hid
      exact foldl_keep_has enrs s.untrusted e he
  · rw [hrec]
    intro hm
    have e1 : ((log c peers h).see c.cfg (.success source.id (enrs.map Enr.id))).askedIds = (log c peers h).askedIds := by
      simp only [Record.see]; split <;> rfl
    have e2 : ((log c peers h).see c.cfg (.success source.id (enrs.map Enr.id))).failed = (log c peers h).failed := by
      simp only [Record.see]; split <;> rfl
    rw [e1] at hm
    rw [e2]
    exact ho.target hm

/-! ## Histories from the start -/

/-- After a history the lookup is open, or it was closed by the event `x`, the last one anybody saw anything of. -/
def Reach (c : Ctx) (peers : List Enr) (h : History) (s : State) : Prop :=
  Open c peers h s ∨ (s.closed = true ∧ ∃ h1 now known l h2, h = h1 ++ (.poll now known, [.answer l]) :: h2 ∧
    (∃ s1, Open c peers h1 s1) ∧ Final c peers h1 now known l ∧ ∀ x ∈ h2, x.2 = [])

theorem step_reach {c : Ctx} {peers : List Enr} {h : History} {s : State} (hr : Reach c peers h s)
    (hd : c.distances ≤ 127) (e : Ev) (hs : Sane [e]) :
    ∃ s' o, step c s e = some (s', o) ∧ Reach c peers (h ++ [(e, o)]) s' := by
  rcases hr with ho | ⟨hc, h1, now, known, l, h2, rfl, h3, h4, h5⟩
  · cases e with
    | poll now known =>
      obtain ⟨s', o, g1, g2⟩ := poll_cases ho hd now known (hs now known (List.mem_singleton.mpr rfl))
      refine ⟨s', o, by unfold step; rw [ho.closed]; exact g1, ?_⟩
      rcases g2 with ⟨g2, _⟩ | ⟨g2, l, rfl, g3⟩
      · exact .inl g2
      · exact .inr ⟨g2, h, now, known, l, [], rfl, ⟨s, ho⟩, g3, fun _ hx => (nomatch hx)⟩
    | nodes source enrs =>
      obtain ⟨s', g1, g2⟩ := nodes_open ho source enrs
      exact ⟨s', [], by unfold step; rw [ho.closed]; simp [g1], .inl g2⟩
  · refine ⟨s, [], by cases e <;> simp [step, hc], .inr ⟨hc, h1, now, known, l, h2 ++ [(e, [])], by simp, h3, h4, ?_⟩⟩
    intro x hx
    rcases List.mem_append.mp hx with hx | hx
    · exact h5 x hx
    · rw [List.mem_singleton.mp hx]

theorem run_reach {c : Ctx} {peers : List Enr} (hd : c.distances ≤ 127) : ∀ (es : List Ev) {h : History} {s : State},
    Reach c peers h s → Sane es → ∃ s' h', run c s es = some (s', h') ∧ h'.map Prod.fst = es ∧ Reach c peers (h ++ h') s'
  | [], h, s, hr, _ => ⟨s, [], rfl, rfl, by simpa using hr⟩
  | e :: es, h, s, hr, hs => by
    obtain ⟨s1, o, h1, h2⟩ := step_reach hr hd e (fun now known hm => hs now known (by
      rw [List.mem_singleton.mp hm]; exact List.mem_cons_self))
    obtain ⟨s2, h', h3, h4, h5⟩ := run_reach hd es h2 (fun now known hm => hs now known (List.mem_cons_of_mem _ hm))
    exact ⟨s2, (e, o) :: h', by unfold run; rw [h1]; simp [h3], by simp [h4], by simpa using h5⟩

/-- Cutting a history at an event. -/
theorem run_split {c : Ctx} : ∀ (es : List Ev) {s s' : State} {h h1 h2 : History} {x : Ev × List Out},
    run c s es = some (s', h) → h = h1 ++ x :: h2 →
    ∃ es1 s1 s2, run c s es1 = some (s1, h1) ∧ step c s1 x.1 = some (s2, x.2) ∧ (∀ e ∈ es1, e ∈ es) ∧ x.1 ∈ es
  | [], s, s', h, h1, h2, x, hr, hh => by
    simp only [run, Option.some.injEq, Prod.mk.injEq] at hr
    obtain ⟨_, rfl⟩ := hr
    cases h1 <;> cases hh
  | e :: es, s, s', h, h1, h2, x, hr, hh => by
    unfold run at hr
    cases hst : step c s e with
    | none => rw [hst] at hr; cases hr
    | some y =>
      obtain ⟨s1, o⟩ := y
      rw [hst] at hr
      obtain ⟨r, hr1, hr2⟩ := Option.map_eq_some_iff.mp hr
      simp only [Prod.mk.injEq] at hr2
      obtain ⟨rfl, rfl⟩ := hr2
      cases h1 with
      | nil =>
        simp only [List.nil_append, List.cons.injEq] at hh
        obtain ⟨rfl, _⟩ := hh
        exact ⟨[], s, s1, rfl, hst, fun _ hx => (nomatch hx), List.mem_cons_self⟩
      | cons y h1 =>
        simp only [List.cons_append, List.cons.injEq] at hh
        obtain ⟨rfl, hh⟩ := hh
        obtain ⟨es1, s2, s3, g1, g2, g3, g4⟩ := run_split es (h := r.2) hr1 hh
        refine ⟨e :: es1, s2, s3, by unfold run; rw [hst]; simp [g1], g2, ?_, List.mem_cons_of_mem _ g4⟩
        intro e' he
        rcases List.mem_cons.mp he with rfl | he
        · exact List.mem_cons_self
        · exact List.mem_cons_of_mem _ (g3 e' he)

/-- The state before an event that somebody saw something of is open. -/
theorem open_before {c : Ctx} {peers : List Enr} {s0 : State} (h0 : start c peers = .inr s0) (hd : c.distances ≤ 127)
    {es : List Ev} (hs : Sane es) {s : State} {h : History} (hr : run c s0 es = some (s, h))
    {h1 h2 : History} {x : Ev × List Out} (hh : h = h1 ++ x :: h2) :
    ∃ s1 s2, Reach c peers h1 s1 ∧ step c s1 x.1 = some (s2, x.2) ∧ Sane [x.1] ∧ (x.2 ≠ [] → Open c peers h1 s1) := by
  obtain ⟨es1, s1, s2, g1, g2, g3, g4⟩ := run_split es hr hh
  obtain ⟨s1', h1', k1, k2, k3⟩ := run_reach hd es1 (.inl (start_open h0))
    (fun now known hm => hs now known (g3 _ hm))
  rw [g1] at k1
  simp only [Option.some.injEq, Prod.mk.injEq] at k1
  obtain ⟨rfl, rfl⟩ := k1
  refine ⟨s1, s2, k3, g2, ?_, ?_⟩
  · intro now known hm
    rw [← List.mem_singleton.mp hm] at g4
    exact hs now known g4
  · intro hne
    rcases k3 with k3 | ⟨k3, _⟩
    · exact k3
    · exfalso
      have : step c s1 x.1 = some (s1, []) := by cases hx : x.1 <;> simp [step, k3]
      rw [this] at g2
      simp only [Option.some.injEq, Prod.mk.injEq] at g2
      exact hne g2.2.symm

end Verif.NodeLookup
