import Verif.Props.LookupSpec

/-! Helper lemmas: traces. -/

namespace Verif.Lookup
open Verif.Props.Lookups

/-- Everything in the metadata is an entry of an ENR of `S`, with its distance. -/
def MetaOk (S : Enr → Prop) (t : Trace) : Prop :=
  ∀ id i, t.metadata id = some i → i.enr.id = id ∧ i.distance = xorDistance id t.target ∧ S i.enr

/-- `t'` is `t` with more metadata: at least for `ids`. -/
structure More (t t' : Trace) (es : List Enr) : Prop where
  received : t'.receivedFrom = t.receivedFrom
  origin : t'.origin = t.origin
  failures : t'.failures = t.failures
  target : t'.target = t.target
  cancelled : t'.cancelled = t.cancelled
  keep : ∀ id, (t.metadata id).isSome → (t'.metadata id).isSome
  has : ∀ e ∈ es, (t'.metadata e.id).isSome
  ok : ∀ {S : Enr → Prop}, MetaOk S t → (∀ e ∈ es, S e) → MetaOk S t'

theorem More.trans {t t' t'' : Trace} {a b : List Enr} (h : More t t' a) (h' : More t' t'' b) : More t t'' (a ++ b) where
  received := h'.received.trans h.received
  origin := h'.origin.trans h.origin
  failures := h'.failures.trans h.failures
  target := h'.target.trans h.target
  cancelled := h'.cancelled.trans h.cancelled
  keep := fun id hi => h'.keep id (h.keep id hi)
  has := fun e he => by
    rcases List.mem_append.mp he with he | he
    · exact h'.keep _ (h.has e he)
    · exact h'.has e he
  ok := fun hk hs => h'.ok (h.ok hk fun e he => hs e (List.mem_append_left _ he)) fun e he =>
    hs e (List.mem_append_right _ he)

theorem insert_isSome {α : Type} (m : Id → Option α) (k : Id) (v : α) (id : Id) :
    (insert m k v id).isSome = (decide (id = k) || (m id).isSome) := by
  unfold insert
  by_cases h : id = k <;> simp [h]

theorem insert_ok {t : Trace} (e : Enr) : More t { t with metadata := insert t.metadata e.id (nodeInfo t.target e) } [e] := by
  refine ⟨rfl, rfl, rfl, rfl, rfl, ?_, ?_, ?_⟩
  · intro id hi; simp only [insert_isSome, hi, Bool.or_true]
  · intro x hx
    rw [List.mem_singleton] at hx
    subst hx
    simp [insert]
  · intro S hk hs id i hi
    simp only [insert] at hi
    split at hi
    · rename_i hid
      have hi := Option.some.inj hi
      rw [← hi]
      exact ⟨by simp only [nodeInfo, hid], by simp only [nodeInfo, hid], hs e (List.mem_singleton.mpr rfl)⟩
    · exact hk id i hi

theorem addMetadata_more (t : Trace) (e : Enr) (b : Bool) : More t (t.addMetadata e b) [e] := by
  unfold Trace.addMetadata
  cases hm : t.metadata e.id with
  | none => exact insert_ok e
  | some i =>
    simp only
    split
    · exact insert_ok e
    · refine ⟨rfl, rfl, rfl, rfl, rfl, fun _ h => h, ?_, fun hk _ => hk⟩
      intro x hx
      rw [List.mem_singleton] at hx
      subst hx
      simp [hm]

theorem addMetadata_responses (t : Trace) (e : Enr) (b : Bool) : (t.addMetadata e b).responses = t.responses := by
  unfold Trace.addMetadata
  cases t.metadata e.id with
  | none => rfl
  | some i => simp only; split <;> rfl

theorem foldMeta_more : ∀ (es : List Enr) (t : Trace),
    More t (es.foldl (fun t e => t.addMetadata e false) t) es ∧
    (es.foldl (fun t e => t.addMetadata e false) t).responses = t.responses
  | [], t => ⟨⟨rfl, rfl, rfl, rfl, rfl, fun _ h => h, fun _ h => (nomatch h), fun hk _ => hk⟩, rfl⟩
  | e :: es, t => by
    have h := foldMeta_more es (t.addMetadata e false)
    refine ⟨?_, h.2.trans (addMetadata_responses t e false)⟩
    have := (addMetadata_more t e false).trans h.1
    exact this

theorem respondedWith_more (t : Trace) (time : Nat) (source : Enr) (es : List Enr) :
    More t (t.respondedWith time source es) (es ++ [source]) := by
  have h := (foldMeta_more es t).1
  unfold Trace.respondedWith
  refine h.trans ?_
  have := addMetadata_more { es.foldl (fun t e => t.addMetadata e false) t with
    responses := insert (es.foldl (fun t e => t.addMetadata e false) t).responses source.id
      { ((es.foldl (fun t e => t.addMetadata e false) t).responses source.id).getD ⟨time, []⟩ with
        respondedWith := (((es.foldl (fun t e => t.addMetadata e false) t).responses source.id).getD
          ⟨time, []⟩).respondedWith ++ es.map Enr.id } } source true
  exact ⟨this.received, this.origin, this.failures, this.target, this.cancelled, this.keep, this.has, this.ok⟩

theorem respondedWith_responses (t : Trace) (time : Nat) (source : Enr) (es : List Enr) :
    (t.respondedWith time source es).responses = insert t.responses source.id
      ⟨((t.responses source.id).getD ⟨time, []⟩).duration,
        ((t.responses source.id).getD ⟨time, []⟩).respondedWith ++ es.map Enr.id⟩ := by
  unfold Trace.respondedWith
  simp only [addMetadata_responses, (foldMeta_more es t).2]

theorem respondedWithContent_more (t : Trace) (time : Nat) (source : Enr) :
    More t (t.respondedWithContent time source) [source] := by
  unfold Trace.respondedWithContent
  have := addMetadata_more { t with responses := insert t.responses source.id ⟨time, []⟩ } source true
  exact ⟨this.received, this.origin, this.failures, this.target, this.cancelled, this.keep, this.has, this.ok⟩

theorem respondedWithContent_responses (t : Trace) (time : Nat) (source : Enr) :
    (t.respondedWithContent time source).responses = insert t.responses source.id ⟨time, []⟩ := by
  unfold Trace.respondedWithContent
  rw [addMetadata_responses]

/-- A record that is only told of replaces nothing but older ones. -/
theorem addMetadata_told (t : Trace) (e : Enr) (id : Id) (i : NodeInfo) (h : t.metadata id = some i) :
    ∃ i', (t.addMetadata e false).metadata id = some i' ∧ (i' = i ∨ i.enr.seq < i'.enr.seq) := by
  unfold Trace.addMetadata
  by_cases hid : id = e.id
  · subst hid
    simp only [h]
    split
    · rename_i hr
      refine ⟨nodeInfo t.target e, by simp [insert], .inr ?_⟩
      simp only [replaces, Bool.and_false, Bool.false_or, Bool.and_eq_true, decide_eq_true_eq] at hr
      exact hr.2
    · exact ⟨i, h, .inl rfl⟩
  · cases t.metadata e.id with
    | none => exact ⟨i, by simp [insert, hid, h], .inl rfl⟩
    | some j =>
      simp only
      split
      · exact ⟨i, by simp [insert, hid, h], .inl rfl⟩
      · exact ⟨i, h, .inl rfl⟩

theorem addMetadata_other (t : Trace) (e : Enr) (b : Bool) (id : Id) (hid : id ≠ e.id) :
    (t.addMetadata e b).metadata id = t.metadata id := by
  unfold Trace.addMetadata
  cases t.metadata e.id with
  | none => simp [insert, hid]
  | some j =>
    simp only
    split
    · simp [insert, hid]
    · rfl

theorem told_all (l : List Enr) : ∀ (t : Trace) (id : Id) (i : NodeInfo), t.metadata id = some i →
    ∃ i', (l.foldl (fun t e => t.addMetadata e false) t).metadata id = some i' ∧
      (i' = i ∨ i.enr.seq < i'.enr.seq) := by
  induction l with
  | nil => intro t id i h; exact ⟨i, h, .inl rfl⟩
  | cons e l ih =>
    intro t id i h
    obtain ⟨j, hj, h1⟩ := addMetadata_told t e id i h
    obtain ⟨k, hk, h2⟩ := ih _ id j hj
    refine ⟨k, hk, ?_⟩
    rcases h1 with rfl | h1 <;> rcases h2 with rfl | h2
    · exact .inl rfl
    · exact .inr h2
    · exact .inr h1
    · right
      rw [UInt64.lt_iff_toNat_lt] at *
      omega

theorem addMetadata_newest (t : Trace) (e : Enr) (i : NodeInfo) (h : (t.addMetadata e true).metadata e.id = some i) :
    i.enr = e ∨ e.seq < i.enr.seq := by
  unfold Trace.addMetadata at h
  cases hm : t.metadata e.id with
  | none =>
    simp only [hm, insert, if_true] at h
    have := Option.some.inj h
    subst this
    exact .inl rfl
  | some j =>
    simp only [hm] at h
    split at h
    · simp only [insert, if_true] at h
      have := Option.some.inj h
      subst this
      exact .inl rfl
    · rename_i hr
      rw [hm] at h
      have := Option.some.inj h
      subst this
      simp only [replaces, Bool.and_true, Bool.and_eq_true, decide_eq_true_eq, Bool.or_eq_true, beq_iff_eq, ne_eq,
        Classical.not_and_iff_not_or_not, Classical.not_not, not_or] at hr
      rcases hr with hr | hr
      · exact .inl hr.symm
      · right
        have h1 := hr.1
        have h2 := hr.2
        rw [UInt64.lt_iff_toNat_lt] at *
        have h3 : e.seq.toNat ≠ j.enr.seq.toNat := fun hh => h1 (UInt64.toNat.inj hh)
        omega

theorem keepNew_spec (self : Id) : ∀ (l u : List Enr),
    (keepNew self u l).1 = u ++ (keepNew self u l).2 ∧
    (keepNew self u l).2.map Enr.id = firstNamed self (u.map Enr.id) (l.map Enr.id) ∧
    ∀ e ∈ (keepNew self u l).2, e ∈ l
  | [], u => ⟨by simp [keepNew], rfl, fun _ h => (nomatch h)⟩
  | e :: l, u => by
    unfold keepNew
    have hmem : (u.any (fun x => x.id == e.id) = true) ↔ e.id ∈ u.map Enr.id := by
      simp only [List.any_eq_true, beq_iff_eq, List.mem_map]
    by_cases h : e.id ≠ self ∧ ¬ u.any (fun x => x.id == e.id)
    · rw [if_pos h]
      have ih := keepNew_spec self l (u ++ [e])
      refine ⟨?_, ?_, ?_⟩
      · simp only; rw [ih.1]; simp
      · simp only [List.map_cons, firstNamed]
        rw [if_neg (by rw [← hmem]; simp only [not_or]; exact h), ih.2.1]
        simp
      · intro x hx
        simp only [List.mem_cons] at hx ⊢
        rcases hx with rfl | hx
        · exact .inl rfl
        · exact .inr (ih.2.2 x hx)
    · rw [if_neg h]
      have ih := keepNew_spec self l u
      refine ⟨ih.1, ?_, fun x hx => List.mem_cons_of_mem _ (ih.2.2 x hx)⟩
      simp only [List.map_cons, firstNamed]
      rw [if_pos, ih.2.1]
      rw [← hmem]
      by_cases hs : e.id = self
      · exact .inl hs
      · right
        exact Classical.byContradiction fun hh => h ⟨hs, hh⟩

theorem firstNamed_all (self : Id) : ∀ (l known : List Id) (id : Id), id ∈ l → id ≠ self →
    id ∈ known ++ firstNamed self known l
  | j :: l, known, id, h, hs => by
    unfold firstNamed
    by_cases hj : j = self ∨ j ∈ known
    · rw [if_pos hj]
      rcases List.mem_cons.mp h with rfl | h
      · exact List.mem_append_left _ (hj.resolve_left hs)
      · exact firstNamed_all self l known id h hs
    · rw [if_neg hj]
      rcases List.mem_cons.mp h with rfl | h
      · simp
      · have := firstNamed_all self l (known ++ [j]) id h hs
        simpa using this

end Verif.Lookup
