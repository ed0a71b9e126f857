import Verif.Props.AcceptQueueSpec

namespace Verif.AQ
open Verif.Props

variable {K P : Type} [DecidableEq K] [DecidableEq P]

/-- Queue and record agree; `c` is the last instant the clock was read. -/
structure Inv (c : Nat) (q : List (Entry K P)) (rec : K → Option (Nat × List P)) : Prop where
  nodup : (q.map (·.key)).Nodup
  entry : ∀ e ∈ q, ∃ t, e.expiry = t + timeout ∧ rec e.key = some (t, e.origin :: e.fallback)
  gone : ∀ k t ps, rec k = some (t, ps) → (∃ e ∈ q, e.key = k) ∨ t + timeout ≤ c
  shape : ∀ k t ps, rec k = some (t, ps) → t ≤ c ∧ ps.Nodup ∧ ps ≠ []

theorem lookup_some {q : List (Entry K P)} {k : K} {e : Entry K P} (h : lookup q k = some e) :
    e ∈ q ∧ e.key = k :=
  ⟨List.mem_of_find?_eq_some h, by simpa using List.find?_some h⟩

theorem lookup_none {q : List (Entry K P)} {k : K} (h : lookup q k = none) : ∀ e ∈ q, e.key ≠ k := by
  intro e he hk
  have := List.find?_eq_none.1 h e he
  simp [hk] at this

theorem lookup_isSome {q : List (Entry K P)} {k : K} (h : ∃ e ∈ q, e.key = k) :
    ∃ e, lookup q k = some e := by
  cases hl : lookup q k with
  | some e => exact ⟨e, rfl⟩
  | none => obtain ⟨e, he, hk⟩ := h; exact absurd hk (lookup_none hl e he)

theorem eq_of_key {q : List (Entry K P)} (hn : (q.map (·.key)).Nodup) {e e' : Entry K P}
    (he : e ∈ q) (he' : e' ∈ q) (hk : e.key = e'.key) : e = e' := by
  induction q with
  | nil => cases he
  | cons a q ih =>
    rw [List.map_cons, List.nodup_cons] at hn
    rcases List.mem_cons.1 he with rfl | h1 <;> rcases List.mem_cons.1 he' with rfl | h2
    · rfl
    · exact absurd (List.mem_map.2 ⟨e', h2, hk.symm⟩) hn.1
    · exact absurd (List.mem_map.2 ⟨e, h1, hk⟩) hn.1
    · exact ih hn.2 h1 h2

theorem nodup_filter {q : List (Entry K P)} (f : Entry K P → Bool) (hn : (q.map (·.key)).Nodup) :
    ((q.filter f).map (·.key)).Nodup :=
  hn.sublist (List.Sublist.map _ List.filter_sublist)

theorem mem_removeKey {q : List (Entry K P)} {k : K} {e : Entry K P} :
    e ∈ removeKey q k ↔ e ∈ q ∧ e.key ≠ k := by
  unfold removeKey; simp [List.mem_filter]

/-- What one poll of the expired entries does. -/
theorem expireOne_spec (now pick : Nat) (q : List (Entry K P)) :
    (expireOne now pick q = q ∧ ∀ e ∈ q, now < e.expiry) ∨
    ∃ e ∈ q, e.expiry ≤ now ∧ expireOne now pick q = removeKey q e.key := by
  unfold expireOne
  simp only
  split
  · rename_i h
    left
    refine ⟨rfl, fun e he => ?_⟩
    apply Classical.byContradiction
    intro hlt
    have hm : e ∈ q.filter (fun e => decide (e.expiry ≤ now)) :=
      List.mem_filter.2 ⟨he, by simpa using Nat.not_lt.1 hlt⟩
    have hpos := List.length_pos_of_mem hm
    rw [List.getElem?_eq_none_iff] at h
    have := Nat.mod_lt pick hpos
    omega
  · rename_i e h
    right
    have hm := List.mem_of_getElem? h
    rw [List.mem_filter] at hm
    exact ⟨e, hm.1, by simpa using hm.2, rfl⟩

theorem Inv.expire {c now pick : Nat} {q : List (Entry K P)} {rec : K → Option (Nat × List P)}
    (h : Inv c q rec) (hc : c ≤ now) : Inv now (expireOne now pick q) rec := by
  rcases expireOne_spec now pick q with ⟨he, -⟩ | ⟨e, he, hx, hr⟩
  · rw [he]
    exact ⟨h.nodup, h.entry, fun k t ps hk => (h.gone k t ps hk).imp_right (fun h => by omega),
      fun k t ps hk => ⟨by have := (h.shape k t ps hk).1; omega, (h.shape k t ps hk).2⟩⟩
  · rw [hr]
    refine ⟨nodup_filter _ h.nodup, fun e' he' => h.entry e' (mem_removeKey.1 he').1, ?_,
      fun k t ps hk => ⟨by have := (h.shape k t ps hk).1; omega, (h.shape k t ps hk).2⟩⟩
    intro k t ps hk
    rcases h.gone k t ps hk with ⟨e', he', rfl⟩ | hg
    · by_cases hke : e'.key = e.key
      · right
        have := eq_of_key h.nodup he' he hke
        subst this
        obtain ⟨t', h1, h2⟩ := h.entry e' he'
        rw [h2] at hk
        have := (Option.some.inj hk)
        have : t' = t := congrArg Prod.fst this
        omega
      · left; exact ⟨e', mem_removeKey.2 ⟨he', hke⟩, rfl⟩
    · right; omega

theorem Inv.congr {c : Nat} {q : List (Entry K P)} {rec rec' : K → Option (Nat × List P)}
    (h : Inv c q rec) (he : ∀ k, rec k = rec' k) : Inv c q rec' := by
  have : rec = rec' := funext he
  rw [← this]; exact h

/-- Removing a key. -/
theorem Inv.remove {c : Nat} {q : List (Entry K P)} {rec : K → Option (Nat × List P)} (k : K)
    (h : Inv c q rec) : Inv c (removeKey q k) (fun k' => if k = k' then none else rec k') := by
  refine ⟨nodup_filter _ h.nodup, ?_, ?_, ?_⟩
  · intro e he
    rw [mem_removeKey] at he
    rw [if_neg (fun x => he.2 x.symm)]
    exact h.entry e he.1
  · intro k' t ps hk
    by_cases hkk : k = k'
    · simp [hkk] at hk
    · rw [if_neg hkk] at hk
      rcases h.gone k' t ps hk with ⟨e, he, rfl⟩ | hg
      · exact .inl ⟨e, mem_removeKey.2 ⟨he, fun x => hkk x.symm⟩, rfl⟩
      · exact .inr hg
  · intro k' t ps hk
    by_cases hkk : k = k'
    · simp [hkk] at hk
    · rw [if_neg hkk] at hk; exact h.shape k' t ps hk

/-- Putting back a key with its new record. -/
theorem Inv.insert {c now : Nat} {q : List (Entry K P)} {rec : K → Option (Nat × List P)} (k : K)
    (o : P) (fb : List P) (hnd : (o :: fb).Nodup) (hc : c ≤ now)
    (h : Inv c q rec) (hk : ∀ e ∈ q, e.key ≠ k) :
    Inv now (⟨k, o, fb, now + timeout⟩ :: q)
      (fun k' => if k = k' then some (now, o :: fb) else rec k') := by
  refine ⟨?_, ?_, ?_, ?_⟩
  · rw [List.map_cons, List.nodup_cons]
    refine ⟨fun hm => ?_, h.nodup⟩
    obtain ⟨e, he, hke⟩ := List.mem_map.1 hm
    exact hk e he hke
  · intro e he
    rcases List.mem_cons.1 he with rfl | he
    · exact ⟨now, rfl, by simp⟩
    · rw [if_neg (fun x => hk e he x.symm)]; exact h.entry e he
  · intro k' t ps hr
    by_cases hkk : k = k'
    · exact .inl ⟨_, List.mem_cons_self, hkk⟩
    · rw [if_neg hkk] at hr
      rcases h.gone k' t ps hr with ⟨e, he, rfl⟩ | hg
      · exact .inl ⟨e, List.mem_cons_of_mem _ he, rfl⟩
      · right; omega
  · intro k' t ps hr
    by_cases hkk : k = k'
    · rw [if_pos hkk] at hr
      have := Option.some.inj hr
      injection this with h1 h2
      subst h1; subst h2
      exact ⟨Nat.le_refl _, hnd, by simp⟩
    · rw [if_neg hkk] at hr
      have := h.shape k' t ps hr
      exact ⟨by omega, this.2⟩

theorem step_inv {c : Nat} {q : List (Entry K P)} {rec : K → Option (Nat × List P)} (o : Op K P)
    (os : List (Op K P)) (h : Inv c q rec) (hc : ClockOk c (o :: os)) :
    Inv (lastOffer c [o]) (step q o).1 (fun k => recordStep k (rec k) (step q o).2) ∧
      ClockOk (lastOffer c [o]) os := by
  cases o with
  | remove k => exact ⟨(h.remove k).congr (fun k' => rfl), hc⟩
  | failed k pick =>
    refine ⟨?_, hc⟩
    show Inv c (processFailed q k pick).1 _
    unfold step processFailed
    cases hl : lookup q k with
    | some e => exact (h.remove k).congr (fun k' => rfl)
    | none =>
      have hq : removeKey q k = q := List.filter_eq_self.2 (fun e he => by
        simpa using lookup_none hl e he)
      have := h.remove k
      rw [hq] at this
      exact this.congr (fun k' => rfl)
  | add now pick k p =>
    obtain ⟨hcn, hco⟩ := hc
    refine ⟨?_, hco⟩
    have hx := h.expire (pick := pick) hcn
    show Inv now (addKey q now pick k p).1 _
    unfold step addKey
    simp only
    cases hl : lookup (expireOne now pick q) k with
    | none =>
      exact (hx.insert k p [] (by simp) (Nat.le_refl _) (lookup_none hl)).congr (fun k' => rfl)
    | some e =>
      obtain ⟨he, hke⟩ := lookup_some hl
      obtain ⟨t, ht, hr⟩ := hx.entry e he
      rw [hke] at hr
      have hnd := (hx.shape k _ _ hr).2.1
      have hrem := hx.remove k
      have hins := hrem.insert k e.origin
        (if e.origin = p ∨ p ∈ e.fallback then e.fallback else e.fallback ++ [p])
        (by
          split
          · exact hnd
          · rename_i hne
            have : (e.origin :: (e.fallback ++ [p])) = (e.origin :: e.fallback) ++ [p] := rfl
            rw [this, List.nodup_append]
            refine ⟨hnd, by simp, ?_⟩
            intro a ha b hb hab
            rw [List.mem_singleton] at hb
            subst hb; subst hab
            rcases List.mem_cons.1 ha with rfl | ha
            · exact hne (.inl rfl)
            · exact hne (.inr ha))
        (Nat.le_refl _) (fun e he => (mem_removeKey.1 he).2)
      refine hins.congr (fun k' => ?_)
      by_cases hkk : k = k'
      · subst hkk
        simp only [if_true, recordStep, hr, Option.map_some, Bool.false_eq_true, if_false,
          Option.some.injEq, Prod.mk.injEq, true_and]
        by_cases hp : e.origin = p ∨ p ∈ e.fallback
        · rw [if_pos hp, if_pos]
          rcases hp with rfl | hp
          · exact List.mem_cons_self
          · exact List.mem_cons_of_mem _ hp
        · rw [if_neg hp, if_neg, List.cons_append]
          intro hm
          rcases List.mem_cons.1 hm with rfl | hm
          · exact hp (.inl rfl)
          · exact hp (.inr hm)
      · simp [recordStep, hkk]

theorem run_inv {c : Nat} {q : List (Entry K P)} {rec : K → Option (Nat × List P)} (ops : List (Op K P))
    (h : Inv c q rec) (hc : ClockOk c ops) :
    Inv (lastOffer c ops) (run q ops).1 (fun k => (run q ops).2.foldl (recordStep k) (rec k)) := by
  induction ops generalizing c q rec with
  | nil => exact h
  | cons o os ih =>
    obtain ⟨h1, h2⟩ := step_inv o os h hc
    have := ih h1 h2
    have hl : lastOffer (lastOffer c [o]) os = lastOffer c (o :: os) := by cases o <;> rfl
    rw [hl] at this
    exact this

theorem init_inv (c : Nat) : Inv c ([] : List (Entry K P)) (fun _ => none) :=
  ⟨by simp, fun e he => (by cases he), fun k t ps h => (by cases h), fun k t ps h => (by cases h)⟩

theorem reach_inv (c : Nat) (ops : List (Op K P)) (hc : ClockOk c ops) :
    Inv (lastOffer c ops) (run [] ops).1 (fun k => record k (run [] ops).2) :=
  run_inv ops (init_inv c) hc

theorem clockOk_snoc {c now pick : Nat} {k : K} {p : P} {ops : List (Op K P)}
    (h : ClockOk c (ops ++ [.add now pick k p])) : ClockOk c ops ∧ lastOffer c ops ≤ now := by
  induction ops generalizing c with
  | nil => exact ⟨trivial, h.1⟩
  | cons o os ih =>
    cases o with
    | add n pk k' p' => exact ⟨⟨h.1, (ih h.2).1⟩, (ih h.2).2⟩
    | remove _ => exact ih h
    | failed _ _ => exact ih h

theorem run_append (q : List (Entry K P)) (a b : List (Op K P)) :
    run q (a ++ b) = ((run (run q a).1 b).1, (run q a).2 ++ (run (run q a).1 b).2) := by
  induction a generalizing q with
  | nil => rfl
  | cons o os ih =>
    show ((run (step q o).1 (os ++ b)).1, _ :: (run (step q o).1 (os ++ b)).2) = _
    rw [ih]; rfl

theorem addKey_snd (q : List (Entry K P)) (now pick : Nat) (k : K) (p : P) :
    (addKey q now pick k p).2 = true ↔ ∀ e ∈ expireOne now pick q, e.key ≠ k := by
  unfold addKey
  simp only
  cases hl : lookup (expireOne now pick q) k with
  | none => simpa using lookup_none hl
  | some e =>
    obtain ⟨he, hk⟩ := lookup_some hl
    simp only [Bool.false_eq_true, false_iff]
    exact fun h => h e he hk

end Verif.AQ
