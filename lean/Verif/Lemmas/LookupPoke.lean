import Verif.Lemmas.LookupRun

/-! Helper lemmas: effects of content lookups. -/

namespace Verif.Lookup
open Verif.Props hiding Seen
open Verif.Props.Lookups

theorem listedNext_isSome (self id : Id) (known : List Id) (r : Option (Nat × List Id)) (e : Ev) (h : r.isSome) :
    (listedNext self id known r e).isSome := by
  cases e with
  | report t s rr =>
    cases rr <;> simp only [listedNext] <;> split <;> first | rfl | exact h
  | _ => exact h

theorem fold_isSome (self id : Id) : ∀ (h : History) (st : List Id × Option (Nat × List Id)),
    (st.2.isSome ∨ ∃ y ∈ h, ∃ tm src r, y.1 = Ev.report tm src r ∧ src.id = id) →
    (h.foldl (listedStep self id) st).2.isSome
  | [], st, hh => by
    rcases hh with hh | ⟨y, hy, _⟩
    · exact hh
    · cases hy
  | x :: h, st, hh => by
    simp only [List.foldl_cons]
    refine fold_isSome self id h _ ?_
    rw [listedStep_eq]
    rcases hh with hh | ⟨y, hy, tm, src, r, h1, h2⟩
    · exact .inl (listedNext_isSome _ _ _ _ _ hh)
    · rcases List.mem_cons.mp hy with rfl | hy
      · left
        simp only [h1]
        cases r <;> simp only [listedNext, if_pos h2] <;> rfl
      · exact .inr ⟨y, hy, tm, src, r, h1, h2⟩

theorem listed_isSome {self : Id} {time : Nat} {peers : List Enr} {id : Id} {h : History} {y : Ev × List Out} (hy : y ∈ h)
    {tm : Nat} {src : Enr} {r : Reported} (h1 : y.1 = .report tm src r) (h2 : src.id = id) :
    (listed self time peers id h).isSome := by
  rw [listed_eq]
  exact fold_isSome self id h _ (.inr ⟨y, hy, tm, src, r, h1, h2⟩)

def pokeable (source : Id) (p : Query.Peer) : Option Id :=
  if p.state = .succeeded then (if p.id = source then none else some p.id) else none

theorem pokeable_some {source id : Id} {p : Query.Peer} (h : pokeable source p = some id) :
    p.state = .succeeded ∧ p.id = id ∧ id ≠ source := by
  unfold pokeable at h
  split at h
  · split at h
    · cases h
    · rename_i h1 h2
      have := Option.some.inj h
      exact ⟨h1, this, this ▸ h2⟩
  · cases h

theorem nodesToPoke_eq (q : Query.CQuery) (source : Id) :
    Query.nodesToPoke q source = (q.base.peers.filterMap (pokeable source)).take q.base.cfg.numResults := rfl

theorem nodesToPoke_mem {cfg : Query.Config} {t : Id} {q : Query.CQuery} {r : Record} (h : Query.Inv cfg t q.base r)
    {source id : Id} (hi : id ∈ Query.nodesToPoke q source) : id ∈ r.answered ∧ id ≠ source := by
  rw [nodesToPoke_eq] at hi
  obtain ⟨p, hp, h1⟩ := List.mem_filterMap.mp (List.mem_of_mem_take hi)
  obtain ⟨h2, rfl, h3⟩ := pokeable_some h1
  have := h.state p hp
  unfold Query.StateOk at this
  rw [h2] at this
  exact ⟨this.2.1, h3⟩

theorem nodesToPoke_closest {cfg : Query.Config} {t : Id} {q : Query.CQuery} {r : Record} (h : Query.Inv cfg t q.base r)
    {source id : Id} (hi : id ∈ r.answered) (hne : id ≠ source) (hnot : id ∉ Query.nodesToPoke q source) :
    (Query.nodesToPoke q source).length = cfg.numResults ∧
    ∀ j ∈ Query.nodesToPoke q source, xorDistance j t < xorDistance id t := by
  rw [nodesToPoke_eq, h.cfgEq] at *
  obtain ⟨p, hp, hpi⟩ := (h.known id).mpr (h.asked id (h.answered id hi))
  have hs : p.state = .succeeded := by
    have := h.state p hp
    unfold Query.StateOk at this
    rw [hpi] at this
    cases hs : p.state with
    | succeeded => rfl
    | notContacted => rw [hs] at this; exact absurd (h.answered id hi) this
    | waiting n => rw [hs] at this; exact absurd hi this.2.1
    | unresponsive => rw [hs] at this; exact absurd hi this.2.1
    | failed => rw [hs] at this; exact absurd hi this.2.1
  have hmem : id ∈ q.base.peers.filterMap (pokeable source) :=
    List.mem_filterMap.mpr ⟨p, hp, by rw [pokeable, if_pos hs, if_neg (by rw [hpi]; exact hne), hpi]⟩
  have hpw : (q.base.peers.filterMap (pokeable source)).Pairwise (fun a b => xorDistance a t < xorDistance b t) := by
    rw [List.pairwise_filterMap]
    refine h.sorted.imp ?_
    intro a b hab x hx y hy
    obtain ⟨_, rfl, _⟩ := pokeable_some hx
    obtain ⟨_, rfl, _⟩ := pokeable_some hy
    exact hab
  generalize q.base.peers.filterMap (pokeable source) = L at *
  have hdrop : id ∈ L.drop cfg.numResults := by
    rw [← List.take_append_drop cfg.numResults L] at hmem
    exact (List.mem_append.mp hmem).resolve_left hnot
  constructor
  · rw [List.length_take]
    have : 0 < (L.drop cfg.numResults).length := List.length_pos_of_mem hdrop
    rw [List.length_drop] at this
    omega
  · intro j hj
    rw [← List.take_append_drop cfg.numResults L] at hpw
    exact (List.pairwise_append.mp hpw).2.2 j hj id hdrop

theorem answer_tasks {s s' : State} {now : Nat} {known : Id → Option Enr} {a : Answer}
    (h : poll s now known = some (s', [.answer a])) : s'.tasks = s.tasks := by
  unfold poll at h
  cases hp : Query.cPoll s.q now with
  | none => rw [hp] at h; cases h
  | some r =>
    obtain ⟨q, st⟩ := r
    simp only [hp] at h
    cases st with
    | finished =>
      simp only [Option.some.injEq, Prod.mk.injEq] at h
      rw [← h.1]
    | validating p =>
      simp only at h
      split at h
      · simp at h
      · simp at h
      · split at h <;> simp at h
    | waiting x =>
      cases x with
      | some p =>
        simp only at h
        split at h <;> simp at h
      | none =>
        simp only at h
        split at h
        · simp only [Option.some.injEq, Prod.mk.injEq] at h
          rw [← h.1]
        · simp at h
    | atCapacity =>
      simp only at h
      split at h
      · simp only [Option.some.injEq, Prod.mk.injEq] at h
        rw [← h.1]
      · simp at h

/-! ### Effects -/

theorem poke_all (c : Ctx) (table : Id → Option (Enr × Nat)) (content : Bytes) (ids : List Id) :
    ∀ (permits : List Bool), (∀ p ∈ permits, p = true) → ids.length ≤ permits.length → ∀ id ∈ ids, ∀ e radius,
    table id = some (e, radius) → (c.affected = true → xorDistance id c.target ≤ radius) →
    .offer e content ∈ poke c table content ids permits := by
  induction ids with
  | nil => intro _ _ _ id hid; cases hid
  | cons i ids ih =>
    intro permits hp hl id hid e radius ht hc
    cases permits with
    | nil => simp at hl
    | cons p permits =>
      have hp1 := hp p List.mem_cons_self
      subst hp1
      have hp2 : ∀ x ∈ permits, x = true := fun x hx => hp x (List.mem_cons_of_mem _ hx)
      have hl2 : ids.length ≤ permits.length := by simpa using hl
      have hl3 : ids.length ≤ (true :: permits).length := by simp; omega
      unfold poke
      rcases List.mem_cons.mp hid with rfl | hid
      · have hcov : (!c.affected || decide (xorDistance id c.target ≤ radius)) = true := by
          cases ha : c.affected with
          | false => rfl
          | true => simpa using hc ha
        simp only [ht, hcov, if_true]
        exact List.mem_cons_self
      · cases table i with
        | none => exact ih _ hp hl3 id hid e radius ht hc
        | some y =>
          simp only
          split
          · exact List.mem_cons_of_mem _ (ih _ hp2 hl2 id hid e radius ht hc)
          · exact ih _ hp hl3 id hid e radius ht hc

theorem poke_count (c : Ctx) (table : Id → Option (Enr × Nat)) (content : Bytes) : ∀ (ids : List Id) (permits : List Bool),
    (poke c table content ids permits).length ≤ permits.count true ∧ (poke c table content ids permits).length ≤ ids.length
  | [], _ => by simp [poke]
  | i :: ids, permits => by
    unfold poke
    cases table i with
    | none =>
      have := poke_count c table content ids permits
      simp only [List.length_cons]
      omega
    | some y =>
      simp only
      split
      · cases permits with
        | nil =>
          have := poke_count c table content ids []
          simp only [List.length_cons]
          exact ⟨this.1, by omega⟩
        | cons p permits =>
          have := poke_count c table content ids permits
          cases p <;> simp only [List.length_cons] <;> simp <;> omega
      · have := poke_count c table content ids permits
        simp only [List.length_cons]
        omega

/-- What a task does besides its message: the value that is used, if any. -/
def usable (see : Seen) (b : Bytes) : Option Bytes :=
  match see.stored with
  | some v => some v
  | none => if see.verdict b = .invalid then none else some b

def storing (c : Ctx) (see : Seen) (b : Bytes) : List Out :=
  if see.stored = none ∧ see.verdict b = .canonicallyValid ∧ see.wanted = true then
    .put b :: (match see.dropped with
      | none => []
      | some dropped => [.propagate ((c.key, b) :: if c.gossipDropped then dropped else [])]) else []

def offers (c : Ctx) (see : Seen) (t : Task) (b : Bytes) : List Out :=
  match usable see b with
  | none => []
  | some v => if c.disablePoke then [] else poke c see.table v t.poke see.permits

theorem process_out (c : Ctx) (see : Seen) (t : Task) (utp : Bool) (b : Bytes) :
    (process c see t utp b).2.2 = storing c see b ++ offers c see t b := by
  unfold process storing offers usable
  cases see.stored with
  | some v => simp
  | none =>
    by_cases hv : see.verdict b = .invalid
    · simp [hv]
    · simp only [if_neg hv, true_and]
      rfl

theorem endTask_out (c : Ctx) (s : State) (n : Nat) (t : Task) (ht : s.tasks[n]? = some t) (fetch : Fetch) (see : Seen) :
    (endTask c s n fetch see).2 = match atHand t fetch with
      | none => []
      | some b => storing c see b ++ offers c see t b := by
  unfold endTask
  simp only [ht]
  unfold taskResult atHand
  cases t.what with
  | content b => simp only [process_out]
  | connection i => cases fetch <;> simp only [process_out]

theorem mem_storing {c : Ctx} {see : Seen} {b : Bytes} {x : Out} : x ∈ storing c see b ↔
    (see.stored = none ∧ see.verdict b = .canonicallyValid ∧ see.wanted = true) ∧
    (x = .put b ∨ ∃ dropped, see.dropped = some dropped ∧
      x = .propagate ((c.key, b) :: if c.gossipDropped then dropped else [])) := by
  unfold storing
  by_cases hc : see.stored = none ∧ see.verdict b = .canonicallyValid ∧ see.wanted = true
  · rw [if_pos hc]
    simp only [hc, and_self, true_and, List.mem_cons]
    cases see.dropped with
    | none => simp
    | some d => simp
  · rw [if_neg hc]
    simp [hc]

theorem mem_offers {c : Ctx} {see : Seen} {t : Task} {b : Bytes} {x : Out} : x ∈ offers c see t b ↔
    ∃ v, usable see b = some v ∧ c.disablePoke = false ∧ x ∈ poke c see.table v t.poke see.permits := by
  unfold offers
  cases usable see b with
  | none => simp
  | some v => cases hd : c.disablePoke <;> simp

theorem usable_iff (see : Seen) (b x : Bytes) : usable see b = some x ↔
    (see.stored = some x ∨ see.stored = none ∧ see.verdict b ≠ .invalid ∧ x = b) := by
  unfold usable
  cases see.stored with
  | some v => simp
  | none =>
    by_cases hv : see.verdict b = .invalid
    · simp [hv]
    · simp only [reduceCtorEq, false_or, ne_eq, hv, not_false_eq_true, true_and, if_false, Option.some.injEq]
      exact ⟨fun h => h.symm, fun h => h.symm⟩

theorem mem_offers_offer {c : Ctx} {see : Seen} {t : Task} {b : Bytes} {x : Out} (h : x ∈ offers c see t b) :
    ∃ to v, x = .offer to v := by
  obtain ⟨v, _, _, hx⟩ := mem_offers.mp h
  obtain ⟨_, _, e, _, rfl, _⟩ := poke_offers c see.table v t.poke see.permits x hx
  exact ⟨e, v, rfl⟩

theorem count_offers (c : Ctx) (see : Seen) (t : Task) (b : Bytes) :
    (storing c see b ++ offers c see t b).countP isOffer ≤ see.permits.count true := by
  rw [List.countP_append]
  have h1 : (storing c see b).countP isOffer = 0 := by
    rw [List.countP_eq_zero]
    intro x hx
    rcases (mem_storing.mp hx).2 with rfl | ⟨_, _, rfl⟩ <;> simp [isOffer]
  rw [h1, Nat.zero_add]
  refine Nat.le_trans List.countP_le_length ?_
  unfold offers
  cases usable see b with
  | none => simp
  | some v =>
    simp only
    split
    · simp
    · exact (poke_count c see.table v t.poke see.permits).1

end Verif.Lookup
