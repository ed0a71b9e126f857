import Verif.Lemmas.Offer

namespace Verif.Offer
open Verif.AQ Verif.Props

variable {St K P : Type} [DecidableEq K] [DecidableEq P]


theorem storeContent_inv {env : TaskEnv St K P} {W : K → Bytes → Prop} {I : St → Prop}
    (hI : PutClosed env.ops W I) {st : St} {k : K} {v : Bytes} (hv : W k v) (h : I st) :
    I (storeContent env.ops env.gossipDropped st k v).1 := by
  unfold storeContent
  split
  · rename_i hw
    split
    · rename_i st' dropped hp; exact hI st k v st' dropped h hv hw hp
    · exact h
  · exact h

/-- What `store_content` hands on. -/
theorem storeContent_prop (env : TaskEnv St K P) (st : St) (k : K) (v : Bytes) :
    (k, v) ∈ (storeContent env.ops env.gossipDropped st k v).2 ∧
    ∀ x ∈ (storeContent env.ops env.gossipDropped st k v).2,
      x = (k, v) ∨ Dropped env x := by
  unfold storeContent
  split
  · split
    · rename_i st' dropped hp
      by_cases hg : env.gossipDropped = true
      · rw [if_pos hg]
        refine ⟨List.mem_cons_self, fun x hx => ?_⟩
        rcases List.mem_cons.1 hx with hx | hx
        · exact .inl hx
        · exact .inr ⟨hg, st, k, v, st', dropped, hp, hx⟩
      · rw [if_neg hg]; simp
    · simp
  · simp

theorem lookup_removeKey {q : List (Entry K P)} {k k' : K} (h : k ≠ k') :
    lookup (removeKey q k') k = lookup q k := by
  unfold lookup removeKey
  rw [List.find?_filter]
  congr 1
  funext e
  by_cases hk : e.key = k
  · simp [hk, h]
  · simp [hk]

theorem lookup_removeKey_self (q : List (Entry K P)) (k : K) : lookup (removeKey q k) k = none := by
  unfold lookup removeKey
  rw [List.find?_filter, List.find?_eq_none]
  intro e _
  by_cases hk : e.key = k <;> simp [hk]

theorem processFailed_queue (q : List (Entry K P)) (k : K) (pick : Nat) :
    (processFailed q k pick).1 = removeKey q k := by
  unfold processFailed
  cases hl : lookup q k with
  | some e => rfl
  | none =>
    exact (List.filter_eq_self.2 (fun e he => by simpa using lookup_none hl e he)).symm

theorem processFailed_peer {q : List (Entry K P)} {k : K} {pick : Nat} {p : P}
    (h : (processFailed q k pick).2 = some p) : p ∈ others q k := by
  unfold processFailed at h
  unfold others
  cases hl : lookup q k with
  | none => rw [hl] at h; cases h
  | some e => rw [hl] at h; exact List.mem_of_getElem? h

/-- Everything a fallback does, in one statement. -/
theorem singleFallback_spec (env : TaskEnv St K P) (s : TaskState St K P) (k : K) :
    (env.affected k = false → singleFallback env s k = s) ∧
    (env.affected k = true → (singleFallback env s k).queue = removeKey s.queue k) ∧
    (∀ W I, PutClosed env.ops W I →
      (∀ p v, env.affected k = true → p ∈ others s.queue k → env.fetch k p = some v →
        env.valid k v = true → W k v) →
      I s.store → I (singleFallback env s k).store) ∧
    ((singleFallback env s k).asked = s.asked ∨
      ∃ p, (singleFallback env s k).asked = s.asked ++ [(k, p)] ∧ p ∈ others s.queue k ∧
        env.affected k = true) ∧
    (∃ new, (singleFallback env s k).propagated = s.propagated ++ new ∧
      (new = [] ∨ ∃ p v, env.affected k = true ∧ p ∈ others s.queue k ∧ env.fetch k p = some v ∧
        env.valid k v = true ∧ new = (storeContent env.ops env.gossipDropped s.store k v).2)) := by
  have hq := processFailed_queue s.queue k (env.pick k)
  unfold singleFallback
  by_cases ha : env.affected k = false
  · rw [if_pos ha]
    refine ⟨fun _ => rfl, fun h => ?_, fun W I _ _ h => h, .inl rfl, [], by simp, .inl rfl⟩
    rw [ha] at h; cases h
  rw [if_neg ha]
  have ha' : env.affected k = true := by simpa using ha
  cases hp : processFailed s.queue k (env.pick k) with
  | mk q o =>
    rw [hp] at hq
    simp only at hq
    cases o with
    | none =>
      dsimp only
      exact ⟨fun h => absurd h ha, fun _ => hq, fun W I _ _ h => h, .inl rfl, [], by simp, .inl rfl⟩
    | some p =>
      have hpe : p ∈ others s.queue k := processFailed_peer (by rw [hp])
      dsimp only
      cases hf : env.fetch k p with
      | none =>
        dsimp only
        exact ⟨fun h => absurd h ha, fun _ => hq, fun W I _ _ h => h, .inr ⟨p, rfl, hpe, ha'⟩, [],
          by simp, .inl rfl⟩
      | some v =>
        dsimp only
        by_cases hv : env.valid k v = true
        · rw [if_pos hv]
          refine ⟨fun h => absurd h ha, fun _ => hq, fun W I hI hW h => storeContent_inv hI (hW p v ha' hpe hf hv) h,
            .inr ⟨p, rfl, hpe, ha'⟩, _, rfl, .inr ⟨p, v, ha', hpe, hf, hv, rfl⟩⟩
        · rw [if_neg hv]
          exact ⟨fun h => absurd h ha, fun _ => hq, fun W I _ _ h => h, .inr ⟨p, rfl, hpe, ha'⟩, [],
            by simp, .inl rfl⟩

theorem storeValidated_failed (env : TaskEnv St K P) (s : TaskState St K P) (items : List (K × Bytes)) :
    (storeValidated env s items).2 =
      (items.filter (fun x => !env.valid x.1 x.2)).map (·.1) := by
  induction items generalizing s with
  | nil => rfl
  | cons x rest ih =>
    obtain ⟨k, v⟩ := x
    unfold storeValidated
    by_cases hv : env.valid k v = true
    · simp [hv, ih]
    · simp [hv, ih]

theorem storeValidated_inv (env : TaskEnv St K P) (s : TaskState St K P) (items : List (K × Bytes))
    {W : K → Bytes → Prop} {I : St → Prop} (hI : PutClosed env.ops W I)
    (hW : ∀ x ∈ items, env.valid x.1 x.2 = true → W x.1 x.2) (h : I s.store) :
    I (storeValidated env s items).1.store := by
  induction items generalizing s with
  | nil => exact h
  | cons x rest ih =>
    obtain ⟨k, v⟩ := x
    unfold storeValidated
    by_cases hv : env.valid k v = true
    · rw [if_pos hv]
      exact ih _ (fun x hx => hW x (List.mem_cons_of_mem _ hx))
        (storeContent_inv hI (hW _ List.mem_cons_self hv) h)
    · rw [if_neg hv]; exact ih _ (fun x hx => hW x (List.mem_cons_of_mem _ hx)) h

theorem storeValidated_prop (env : TaskEnv St K P) (s : TaskState St K P) (items : List (K × Bytes)) :
    ∃ new, (storeValidated env s items).1.propagated = s.propagated ++ new ∧
      (∀ x ∈ items, env.valid x.1 x.2 = true → x ∈ new) ∧
      ∀ x ∈ new, (x ∈ items ∧ env.valid x.1 x.2 = true) ∨ Dropped env x := by
  induction items generalizing s with
  | nil => exact ⟨[], by simp [storeValidated], by simp, by simp⟩
  | cons y rest ih =>
    obtain ⟨k, v⟩ := y
    unfold storeValidated
    by_cases hv : env.valid k v = true
    · rw [if_pos hv]
      obtain ⟨new, h1, h2, h3⟩ := ih
        { s with
          queue := removeKey s.queue k
          store := (storeContent env.ops env.gossipDropped s.store k v).1
          propagated := s.propagated ++ (storeContent env.ops env.gossipDropped s.store k v).2 }
      obtain ⟨p1, p2⟩ := storeContent_prop env s.store k v
      refine ⟨(storeContent env.ops env.gossipDropped s.store k v).2 ++ new, ?_, ?_, ?_⟩
      · rw [← List.append_assoc]; exact h1
      · intro x hx hxv
        rcases List.mem_cons.1 hx with rfl | hx
        · exact List.mem_append.2 (.inl p1)
        · exact List.mem_append.2 (.inr (h2 x hx hxv))
      · intro x hx
        rcases List.mem_append.1 hx with hx | hx
        · rcases p2 x hx with rfl | hd
          · exact .inl ⟨List.mem_cons_self, hv⟩
          · exact .inr hd
        · rcases h3 x hx with ⟨h4, h5⟩ | hd
          · exact .inl ⟨List.mem_cons_of_mem _ h4, h5⟩
          · exact .inr hd
    · rw [if_neg hv]
      obtain ⟨new, h1, h2, h3⟩ := ih s
      refine ⟨new, h1, ?_, ?_⟩
      · intro x hx hxv
        rcases List.mem_cons.1 hx with rfl | hx
        · exact absurd hxv hv
        · exact h2 x hx hxv
      · intro x hx
        rcases h3 x hx with ⟨h4, h5⟩ | hd
        · exact .inl ⟨List.mem_cons_of_mem _ h4, h5⟩
        · exact .inr hd

theorem storeValidated_asked (env : TaskEnv St K P) (s : TaskState St K P) (items : List (K × Bytes)) :
    (storeValidated env s items).1.asked = s.asked := by
  induction items generalizing s with
  | nil => rfl
  | cons x rest ih =>
    obtain ⟨k, v⟩ := x
    unfold storeValidated
    by_cases hv : env.valid k v = true
    · rw [if_pos hv]; exact ih _
    · rw [if_neg hv]; exact ih _

open Classical in
theorem storeValidated_lookup (env : TaskEnv St K P) (s : TaskState St K P) (items : List (K × Bytes))
    (k : K) :
    lookup (storeValidated env s items).1.queue k =
      if ∃ v, (k, v) ∈ items ∧ env.valid k v = true then none else lookup s.queue k := by
  induction items generalizing s with
  | nil => simp [storeValidated]
  | cons x rest ih =>
    obtain ⟨k', v'⟩ := x
    unfold storeValidated
    by_cases hv : env.valid k' v' = true
    · rw [if_pos hv, ih]
      by_cases hk : k = k'
      · subst hk
        rw [lookup_removeKey_self]
        rw [if_pos (⟨v', List.mem_cons_self, hv⟩ : ∃ v, (k, v) ∈ (k, v') :: rest ∧ env.valid k v = true)]
        split <;> rfl
      · rw [lookup_removeKey hk]
        have : (∃ v, (k, v) ∈ rest ∧ env.valid k v = true) ↔
            ∃ v, (k, v) ∈ (k', v') :: rest ∧ env.valid k v = true := by
          constructor
          · rintro ⟨v, h1, h2⟩; exact ⟨v, List.mem_cons_of_mem _ h1, h2⟩
          · rintro ⟨v, h1, h2⟩
            rcases List.mem_cons.1 h1 with h1 | h1
            · exact absurd (congrArg Prod.fst h1) hk
            · exact ⟨v, h1, h2⟩
        by_cases hex : ∃ v, (k, v) ∈ rest ∧ env.valid k v = true
        · rw [if_pos hex, if_pos (this.1 hex)]
        · rw [if_neg hex, if_neg (fun h => hex (this.2 h))]
    · rw [if_neg hv, ih]
      have : (∃ v, (k, v) ∈ rest ∧ env.valid k v = true) ↔
          ∃ v, (k, v) ∈ (k', v') :: rest ∧ env.valid k v = true := by
        constructor
        · rintro ⟨v, h1, h2⟩; exact ⟨v, List.mem_cons_of_mem _ h1, h2⟩
        · rintro ⟨v, h1, h2⟩
          rcases List.mem_cons.1 h1 with h1 | h1
          · injection h1 with h3 h4; subst h3; subst h4; exact absurd h2 hv
          · exact ⟨v, h1, h2⟩
      by_cases hex : ∃ v, (k, v) ∈ rest ∧ env.valid k v = true
      · rw [if_pos hex, if_pos (this.1 hex)]
      · rw [if_neg hex, if_neg (fun h => hex (this.2 h))]

/-- Fallbacks never add peers to the queue. -/
theorem singleFallback_others (env : TaskEnv St K P) (s : TaskState St K P) (k k' : K) (p : P)
    (h : p ∈ others (singleFallback env s k').queue k) : p ∈ others s.queue k := by
  obtain ⟨s1, s2, -⟩ := singleFallback_spec env s k'
  cases ha : env.affected k' with
  | false => rw [s1 ha] at h; exact h
  | true =>
    rw [s2 ha] at h
    by_cases hk : k = k'
    · subst hk
      unfold others at h
      rw [lookup_removeKey_self] at h
      cases h
    · unfold others at h ⊢
      rw [lookup_removeKey hk] at h
      exact h

theorem storeValidated_others (env : TaskEnv St K P) (s : TaskState St K P) (items : List (K × Bytes))
    (k : K) (p : P) (h : p ∈ others (storeValidated env s items).1.queue k) : p ∈ others s.queue k := by
  induction items generalizing s with
  | nil => exact h
  | cons x rest ih =>
    obtain ⟨k', v'⟩ := x
    unfold storeValidated at h
    by_cases hv : env.valid k' v' = true
    · rw [if_pos hv] at h
      have := ih _ h
      by_cases hk : k = k'
      · subst hk
        unfold others at this
        rw [lookup_removeKey_self] at this
        cases this
      · unfold others at this ⊢
        rw [lookup_removeKey hk] at this
        exact this
    · rw [if_neg hv] at h; exact ih _ h

theorem fallbacks_inv (env : TaskEnv St K P) (s : TaskState St K P) (ks : List K)
    {W : K → Bytes → Prop} {I : St → Prop} (hI : PutClosed env.ops W I)
    (hW : ∀ k p v, k ∈ ks → env.affected k = true → p ∈ others s.queue k → env.fetch k p = some v →
      env.valid k v = true → W k v)
    (h : I s.store) : I (fallbacks env s ks).store := by
  induction ks generalizing s with
  | nil => exact h
  | cons k ks ih =>
    refine ih _ (fun k' p v hm ha hp => hW k' p v (List.mem_cons_of_mem _ hm) ha
      (singleFallback_others env s k' k p hp)) ?_
    exact (singleFallback_spec env s k).2.2.1 W I hI
      (fun p v => hW k p v List.mem_cons_self) h

theorem fallbacks_prop (env : TaskEnv St K P) (s : TaskState St K P) (ks : List K) :
    ∃ new, (fallbacks env s ks).propagated = s.propagated ++ new ∧
      ∀ x ∈ new, (x.1 ∈ ks ∧ env.affected x.1 = true ∧ (∃ p ∈ others s.queue x.1, env.fetch x.1 p = some x.2) ∧
        env.valid x.1 x.2 = true) ∨ Dropped env x := by
  induction ks generalizing s with
  | nil => exact ⟨[], by simp [fallbacks], by simp⟩
  | cons k ks ih =>
    obtain ⟨new, h1, h2⟩ := ih (singleFallback env s k)
    obtain ⟨new', h3, h4⟩ := (singleFallback_spec env s k).2.2.2.2
    refine ⟨new' ++ new, ?_, ?_⟩
    · rw [← List.append_assoc, ← h3]; exact h1
    · intro x hx
      rcases List.mem_append.1 hx with hx | hx
      · rcases h4 with h4 | ⟨p, v, ha, hp, hf, hv, h4⟩
        · rw [h4] at hx; cases hx
        · rw [h4] at hx
          rcases (storeContent_prop env s.store k v).2 x hx with rfl | hd
          · exact .inl ⟨List.mem_cons_self, ha, ⟨p, hp, hf⟩, hv⟩
          · exact .inr hd
      · rcases h2 x hx with ⟨h5, h6, ⟨p, h7, h8⟩, h9⟩ | hd
        · exact .inl ⟨List.mem_cons_of_mem _ h5, h6, ⟨p, singleFallback_others env s _ _ p h7, h8⟩, h9⟩
        · exact .inr hd

theorem fallbacks_lookup (env : TaskEnv St K P) (s : TaskState St K P) (ks : List K) (k : K) :
    lookup (fallbacks env s ks).queue k =
      if k ∈ ks ∧ env.affected k = true then none else lookup s.queue k := by
  induction ks generalizing s with
  | nil => simp [fallbacks]
  | cons k' ks ih =>
    show lookup (fallbacks env (singleFallback env s k') ks).queue k = _
    rw [ih]
    obtain ⟨h1, h2, -⟩ := singleFallback_spec env s k'
    by_cases hk : k = k'
    · subst hk
      by_cases ha : env.affected k = true
      · rw [h2 ha, lookup_removeKey_self, if_pos (⟨List.mem_cons_self, ha⟩ : k ∈ k :: ks ∧ env.affected k = true)]
        split <;> rfl
      · have ha' : env.affected k = false := by simpa using ha
        rw [h1 ha', if_neg (fun h => ha h.2), if_neg (fun h => ha h.2)]
    · have hq : lookup (singleFallback env s k').queue k = lookup s.queue k := by
        cases ha : env.affected k' with
        | true => rw [h2 ha, lookup_removeKey hk]
        | false => rw [h1 ha]
      rw [hq]
      by_cases hm : k ∈ ks ∧ env.affected k = true
      · rw [if_pos hm, if_pos ⟨List.mem_cons_of_mem _ hm.1, hm.2⟩]
      · rw [if_neg hm, if_neg]
        rintro ⟨h3, h4⟩
        rcases List.mem_cons.1 h3 with h3 | h3
        · exact hk h3
        · exact hm ⟨h3, h4⟩

/-- A key that is fetched through a fallback is not fetched again. -/
theorem fallbacks_asked (env : TaskEnv St K P) (s : TaskState St K P) (ks : List K) :
    ∃ new : List (K × P), (fallbacks env s ks).asked = s.asked ++ new ∧
      (new.map (·.1)).Sublist ks ∧ (new.map (·.1)).Nodup ∧
      ∀ k p, (k, p) ∈ new → p ∈ others s.queue k ∧ env.affected k = true := by
  induction ks generalizing s with
  | nil => exact ⟨[], by simp [fallbacks], by simp, by simp, by simp⟩
  | cons k' ks ih =>
    obtain ⟨new, h1, h2, h3, h4⟩ := ih (singleFallback env s k')
    obtain ⟨s1, s2, -, s4, -⟩ := singleFallback_spec env s k'
    have hoth : ∀ k p, p ∈ others (singleFallback env s k').queue k → p ∈ others s.queue k ∧
        (env.affected k' = true → k ≠ k') := by
      intro k p hp
      cases ha : env.affected k' with
      | false => rw [s1 ha] at hp; exact ⟨hp, fun h => by cases h⟩
      | true =>
        rw [s2 ha] at hp
        by_cases hk : k = k'
        · subst hk
          unfold others at hp
          rw [lookup_removeKey_self] at hp
          cases hp
        · unfold others at hp ⊢
          rw [lookup_removeKey hk] at hp
          exact ⟨hp, fun _ => hk⟩
    show ∃ new, (fallbacks env (singleFallback env s k') ks).asked = _ ∧ _
    rcases s4 with s4 | ⟨p, s4, s5, s6⟩
    · refine ⟨new, by rw [h1, s4], h2.cons k', h3, fun k p hm => ?_⟩
      obtain ⟨h5, h6⟩ := h4 k p hm
      exact ⟨(hoth k p h5).1, h6⟩
    · refine ⟨(k', p) :: new, by rw [h1, s4]; simp, ?_, ?_, ?_⟩
      · exact h2.cons_cons k'
      · rw [List.map_cons, List.nodup_cons]
        refine ⟨fun hm => ?_, h3⟩
        obtain ⟨⟨k2, p2⟩, hm2, hk2⟩ := List.mem_map.1 hm
        have hk2' : k2 = k' := hk2
        subst hk2'
        exact (hoth k2 p2 (h4 k2 p2 hm2).1).2 s6 rfl
      · intro k2 p2 hm
        rcases List.mem_cons.1 hm with hm | hm
        · injection hm with e1 e2; subst e1; subst e2; exact ⟨s5, s6⟩
        · obtain ⟨h5, h6⟩ := h4 k2 p2 hm
          exact ⟨(hoth k2 p2 h5).1, h6⟩

end Verif.Offer
