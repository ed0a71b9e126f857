import Verif.Lemmas.OfferTask

/-! # C53: what an inbound transfer does to the store, the queue and the network -/

namespace Verif.Props
open Verif.Offer Verif.AQ

variable {St K P : Type} [DecidableEq K] [DecidableEq P]

/-- Keys that arrive as pairs are accepted keys. -/
theorem decodePayload_keys {accepted : List K} {bytes : Bytes} {pairs : List (K × Bytes)}
    (h : decodePayload accepted bytes = some pairs) : pairs.map (·.1) = accepted := by
  unfold decodePayload at h
  cases hd : Payload.decode bytes with
  | error e => simp [hd] at h
  | ok vals =>
    simp only [hd] at h
    by_cases hl : accepted.length ≠ vals.length
    · rw [if_pos hl] at h; cases h
    · rw [if_neg hl] at h
      have := Option.some.inj h
      subst this
      exact List.map_fst_zip (by omega)

/-- Whatever arrives: the store changes only by putting content that the validator accepted for its
key, that the store wants, and that was delivered for that key in this transfer or fetched from another
peer that had offered the key. -/
theorem C53_only_validated (env : TaskEnv St K P) (s : TaskState St K P) (accepted : List K)
    (data : Option Bytes) (I : St → Prop)
    (hI : PutClosed env.ops (fun k v => env.valid k v = true ∧
      (Delivered accepted data k v ∨ Fetched env s.queue accepted k v)) I)
    (h : I s.store) : I (inboundTask env s accepted data).store := by
  have hfall : ∀ ks s', (∀ k ∈ ks, k ∈ accepted) →
      (∀ k p, p ∈ others s'.queue k → p ∈ others s.queue k) → I s'.store →
      I (fallbacks env s' ks).store := by
    intro ks s' hks hq hs'
    exact fallbacks_inv env s' ks hI
      (fun k p v hm ha hp hf hv => ⟨hv, .inr ⟨hks k hm, ha, p, hq k p hp, hf⟩⟩) hs'
  unfold inboundTask
  cases data with
  | none => exact hfall accepted s (fun k h => h) (fun k p h => h) h
  | some bytes =>
    dsimp only
    cases hd : decodePayload accepted bytes with
    | none => exact hfall accepted s (fun k h => h) (fun k p h => h) h
    | some pairs =>
      dsimp only
      refine hfall _ _ ?_ (fun k p hp => storeValidated_others env s pairs k p hp) ?_
      · intro k hk
        rw [storeValidated_failed] at hk
        obtain ⟨x, hx, rfl⟩ := List.mem_map.1 hk
        rw [← decodePayload_keys hd]
        exact List.mem_map.2 ⟨x, (List.mem_filter.1 hx).1, rfl⟩
      · exact storeValidated_inv env s pairs hI
          (fun x hx hv => ⟨hv, .inl ⟨bytes, pairs, rfl, hd, hx⟩⟩) h

/-- What is passed on to other peers: everything that was delivered and valid, and besides that only
valid fetched content and content the store dropped. -/
theorem C53_propagated (env : TaskEnv St K P) (s : TaskState St K P) (accepted : List K)
    (data : Option Bytes) :
    ∃ new, (inboundTask env s accepted data).propagated = s.propagated ++ new ∧
      (∀ k v, Delivered accepted data k v → env.valid k v = true → (k, v) ∈ new) ∧
      ∀ x ∈ new, (env.valid x.1 x.2 = true ∧
        (Delivered accepted data x.1 x.2 ∨ Fetched env s.queue accepted x.1 x.2)) ∨ Dropped env x := by
  have hall : ∃ new, (fallbacks env s accepted).propagated = s.propagated ++ new ∧
      ∀ x ∈ new, (env.valid x.1 x.2 = true ∧ (Delivered accepted data x.1 x.2 ∨
        Fetched env s.queue accepted x.1 x.2)) ∨ Dropped env x := by
    obtain ⟨new, h1, h2⟩ := fallbacks_prop env s accepted
    refine ⟨new, h1, fun x hx => ?_⟩
    rcases h2 x hx with ⟨h3, h4, h5, h6⟩ | hd
    · exact .inl ⟨h6, .inr ⟨h3, h4, h5⟩⟩
    · exact .inr hd
  unfold inboundTask
  cases data with
  | none =>
    obtain ⟨new, h1, h2⟩ := hall
    exact ⟨new, h1, (by rintro k v ⟨b, ps, hb, -⟩; cases hb), h2⟩
  | some bytes =>
    dsimp only
    cases hd : decodePayload accepted bytes with
    | none =>
      obtain ⟨new, h1, h2⟩ := hall
      refine ⟨new, h1, ?_, h2⟩
      rintro k v ⟨b, ps, hb, hps, -⟩ _
      have := Option.some.inj hb
      subst this
      rw [hd] at hps
      cases hps
    | some pairs =>
      dsimp only
      obtain ⟨new1, a1, a2, a3⟩ := storeValidated_prop env s pairs
      obtain ⟨new2, b1, b2⟩ := fallbacks_prop env (storeValidated env s pairs).1
        (storeValidated env s pairs).2
      refine ⟨new1 ++ new2, by rw [b1, a1, List.append_assoc], ?_, ?_⟩
      · rintro k v ⟨b, ps, hb, hps, hm⟩ hv
        have := Option.some.inj hb
        subst this
        rw [hd] at hps
        have := Option.some.inj hps
        subst this
        exact List.mem_append.2 (.inl (a2 _ hm hv))
      · intro x hx
        rcases List.mem_append.1 hx with hx | hx
        · rcases a3 x hx with ⟨h3, h4⟩ | hdr
          · exact .inl ⟨h4, .inl ⟨bytes, pairs, rfl, hd, h3⟩⟩
          · exact .inr hdr
        · rcases b2 x hx with ⟨h3, h4, ⟨p, h5, h6⟩, h7⟩ | hdr
          · refine .inl ⟨h7, .inr ⟨?_, h4, p, storeValidated_others env s pairs _ p h5, h6⟩⟩
            rw [storeValidated_failed] at h3
            obtain ⟨y, hy, hy2⟩ := List.mem_map.1 h3
            rw [← decodePayload_keys hd]
            exact List.mem_map.2 ⟨y, (List.mem_filter.1 hy).1, hy2⟩
          · exact .inr hdr

/-- When everything arrives and is valid the task stores the values under their keys, in the order of
the offer, and asks nobody. -/
theorem C53_stored_in_order (env : TaskEnv St K P) (s : TaskState St K P) (accepted : List K)
    (bytes : Bytes) (pairs : List (K × Bytes)) (hd : decodePayload accepted bytes = some pairs)
    (hv : ∀ x ∈ pairs, env.valid x.1 x.2 = true) :
    (inboundTask env s accepted (some bytes)).store =
      pairs.foldl (fun st x => (storeContent env.ops env.gossipDropped st x.1 x.2).1) s.store ∧
    (inboundTask env s accepted (some bytes)).asked = s.asked := by
  have key : ∀ (ps : List (K × Bytes)) (s : TaskState St K P),
      (∀ x ∈ ps, env.valid x.1 x.2 = true) →
      (storeValidated env s ps).1.store =
        ps.foldl (fun st x => (storeContent env.ops env.gossipDropped st x.1 x.2).1) s.store ∧
      (storeValidated env s ps).2 = [] := by
    intro ps
    induction ps with
    | nil => intro s _; exact ⟨rfl, rfl⟩
    | cons x rest ih =>
      intro s hps
      obtain ⟨k, v⟩ := x
      unfold storeValidated
      rw [if_pos (hps _ List.mem_cons_self)]
      exact ih _ (fun x hx => hps x (List.mem_cons_of_mem _ hx))
  obtain ⟨k1, k2⟩ := key pairs s hv
  unfold inboundTask
  simp only [hd, k2]
  exact ⟨k1, storeValidated_asked env s pairs⟩

/-- After the task the key of every accepted item is free again if its content arrived and was valid,
or if it is affected by the radius; keys that were not accepted are not touched. -/
theorem C53_keys_freed_partial (env : TaskEnv St K P) (s : TaskState St K P) (accepted : List K)
    (data : Option Bytes) (k : K) :
    (((∃ v, Delivered accepted data k v ∧ env.valid k v = true) ∨
      (k ∈ accepted ∧ env.affected k = true)) →
      ∀ e ∈ (inboundTask env s accepted data).queue, e.key ≠ k) ∧
    (k ∉ accepted →
      lookup (inboundTask env s accepted data).queue k = lookup s.queue k) := by
  have hlk : ∀ q : List (Entry K P), lookup q k = none → ∀ e ∈ q, e.key ≠ k :=
    fun q h => lookup_none h
  unfold inboundTask
  cases data with
  | none =>
    refine ⟨fun h => hlk _ ?_, fun h => ?_⟩
    · rcases h with ⟨v, ⟨b, ps, hb, -⟩, -⟩ | h
      · cases hb
      · rw [fallbacks_lookup, if_pos h]
    · rw [fallbacks_lookup, if_neg (fun h' => h h'.1)]
  | some bytes =>
    dsimp only
    cases hd : decodePayload accepted bytes with
    | none =>
      refine ⟨fun h => hlk _ ?_, fun h => ?_⟩
      · rcases h with ⟨v, ⟨b, ps, hb, hps, -⟩, -⟩ | h
        · have := Option.some.inj hb
          subst this
          rw [hd] at hps
          cases hps
        · rw [fallbacks_lookup, if_pos h]
      · rw [fallbacks_lookup, if_neg (fun h' => h h'.1)]
    | some pairs =>
      dsimp only
      have hkeys := decodePayload_keys hd
      have hfail : ∀ k', k' ∈ (storeValidated env s pairs).2 ↔
          ∃ v, (k', v) ∈ pairs ∧ ¬ env.valid k' v = true := by
        intro k'
        rw [storeValidated_failed]
        constructor
        · intro h
          obtain ⟨⟨a, v⟩, hx, rfl⟩ := List.mem_map.1 h
          rw [List.mem_filter] at hx
          exact ⟨v, hx.1, by simpa using hx.2⟩
        · rintro ⟨v, h1, h2⟩
          exact List.mem_map.2 ⟨(k', v), List.mem_filter.2 ⟨h1, by simpa using h2⟩, rfl⟩
      have hsv := storeValidated_lookup env s pairs k
      refine ⟨fun h => hlk _ ?_, fun h => ?_⟩
      · rw [fallbacks_lookup]
        by_cases hm : k ∈ (storeValidated env s pairs).2 ∧ env.affected k = true
        · rw [if_pos hm]
        · rw [if_neg hm, hsv, if_pos]
          rcases h with ⟨v, ⟨b, ps, hb, hps, hin⟩, hv⟩ | ⟨h1, h2⟩
          · have := Option.some.inj hb
            subst this
            rw [hd] at hps
            have := Option.some.inj hps
            subst this
            exact ⟨v, hin, hv⟩
          · rw [← hkeys] at h1
            obtain ⟨⟨k', v⟩, hx, rfl⟩ := List.mem_map.1 h1
            refine ⟨v, hx, ?_⟩
            apply Classical.byContradiction
            intro hnv
            exact hm ⟨(hfail k').2 ⟨v, hx, hnv⟩, h2⟩
      · have hno : ∀ v, (k, v) ∉ pairs := fun v hm =>
          h (by rw [← hkeys]; exact List.mem_map.2 ⟨(k, v), hm, rfl⟩)
        rw [fallbacks_lookup, if_neg, hsv, if_neg]
        · rintro ⟨v, hm, -⟩; exact hno v hm
        · rintro ⟨hm, -⟩
          obtain ⟨v, hm', -⟩ := (hfail k).1 hm
          exact hno v hm'

/-- Fallback requests: at most one for each key, only for accepted keys that are affected by the
radius and were not delivered validly, each to a peer that had offered the key as well. -/
theorem C53_fallback_requests (env : TaskEnv St K P) (s : TaskState St K P) (accepted : List K)
    (data : Option Bytes) :
    ∃ new : List (K × P), (inboundTask env s accepted data).asked = s.asked ++ new ∧
      (new.map (·.1)).Nodup ∧
      ∀ k p, (k, p) ∈ new → k ∈ accepted ∧ env.affected k = true ∧ p ∈ others s.queue k ∧
        ¬ ∃ v, Delivered accepted data k v ∧ env.valid k v = true := by
  unfold inboundTask
  cases data with
  | none =>
    obtain ⟨new, h1, h2, h3, h4⟩ := fallbacks_asked env s accepted
    refine ⟨new, h1, h3, fun k p hm => ?_⟩
    obtain ⟨h5, h6⟩ := h4 k p hm
    exact ⟨h2.subset (List.mem_map.2 ⟨_, hm, rfl⟩), h6, h5, by rintro ⟨v, ⟨b, ps, hb, -⟩, -⟩; cases hb⟩
  | some bytes =>
    dsimp only
    cases hd : decodePayload accepted bytes with
    | none =>
      obtain ⟨new, h1, h2, h3, h4⟩ := fallbacks_asked env s accepted
      refine ⟨new, h1, h3, fun k p hm => ?_⟩
      obtain ⟨h5, h6⟩ := h4 k p hm
      refine ⟨h2.subset (List.mem_map.2 ⟨_, hm, rfl⟩), h6, h5, ?_⟩
      rintro ⟨v, ⟨b, ps, hb, hps, -⟩, -⟩
      have := Option.some.inj hb
      subst this
      rw [hd] at hps
      cases hps
    | some pairs =>
      dsimp only
      obtain ⟨new, h1, h2, h3, h4⟩ := fallbacks_asked env (storeValidated env s pairs).1
        (storeValidated env s pairs).2
      rw [storeValidated_asked] at h1
      refine ⟨new, h1, h3, fun k p hm => ?_⟩
      obtain ⟨h5, h6⟩ := h4 k p hm
      have hk := h2.subset (List.mem_map.2 ⟨(k, p), hm, rfl⟩)
      rw [storeValidated_failed] at hk
      obtain ⟨⟨k', v'⟩, hx, rfl⟩ := List.mem_map.1 hk
      have hx' := (List.mem_filter.1 hx).1
      refine ⟨?_, h6, storeValidated_others env s pairs _ p h5, ?_⟩
      · rw [← decodePayload_keys hd]; exact List.mem_map.2 ⟨_, hx', rfl⟩
      · rintro ⟨v, ⟨b, ps, hb, hps, hin⟩, hv⟩
        have := Option.some.inj hb
        subst this
        rw [hd] at hps
        have := Option.some.inj hps
        subst this
        have hl := storeValidated_lookup env s pairs k'
        rw [if_pos ⟨v, hin, hv⟩] at hl
        unfold others at h5
        rw [hl] at h5
        cases h5

/-- A key not affected by the radius (all keys of the beacon network) is not freed when its transfer
fails: its entry stays in the queue as it was, so the key is refused until the entry expires — and each
refused offer puts the expiry off (`C13_stale_refresh_violated`). -/
theorem C53_keys_freed_violated (env : TaskEnv St K P) (s : TaskState St K P) (accepted : List K) (k : K)
    (ha : env.affected k = false) :
    lookup (inboundTask env s accepted none).queue k = lookup s.queue k := by
  show lookup (fallbacks env s accepted).queue k = _
  rw [fallbacks_lookup, if_neg]
  rintro ⟨-, h⟩
  rw [ha] at h
  cases h

/-! ## Concrete cases -/

/-- A store that is the list of what was put; keys are bytes; content is valid when it starts with its
key; the even keys are affected by the radius; peer `p` returns the content `[k, p]`. -/
def taskEnv : TaskEnv (List (UInt8 × Bytes)) UInt8 Nat where
  ops := ⟨fun _ _ => some .store, fun st k v => some (st ++ [(k, v)], [])⟩
  gossipDropped := false
  valid := fun k v => v.head? == some k
  affected := fun k => k % 2 == 0
  fetch := fun k p => some [k, UInt8.ofNat p]
  pick := fun _ => 0

/-- Keys 2, 4 and 5 were accepted from peer 7, and peer 8 offered 4 and 5 too. -/
def taskQueue : List (Entry UInt8 Nat) :=
  (run [] [.add 0 0 2 7, .add 0 0 4 7, .add 0 0 5 7, .add 1 0 4 8, .add 1 0 5 8]).1

/-- 2 arrives well, 4 and 5 are invalid: 2 is stored, 4 is fetched from peer 8 and stored, 5 stays in
the queue. -/
example :
    (inboundTask taskEnv ⟨taskQueue, [], [], []⟩ [2, 4, 5] (some [2, 2, 20, 1, 9, 1, 9])).store =
      [(2, [2, 20]), (4, [4, 8])] ∧
    (inboundTask taskEnv ⟨taskQueue, [], [], []⟩ [2, 4, 5] (some [2, 2, 20, 1, 9, 1, 9])).asked =
      [(4, 8)] ∧
    (inboundTask taskEnv ⟨taskQueue, [], [], []⟩ [2, 4, 5] (some [2, 2, 20, 1, 9, 1, 9])).queue.map (·.key) =
      [5] := by
  decide +kernel

/-- A failed transfer of the beacon-like key 5: the entry is still there. -/
example : (lookup (inboundTask taskEnv ⟨taskQueue, [], [], []⟩ [5] none).queue 5).isSome = true := by
  decide +kernel

/-- The hypothesis of `C53_only_validated` is met by "everything stored is valid". -/
example : PutClosed taskEnv.ops (fun k v => taskEnv.valid k v = true)
    (fun st => ∀ x ∈ st, taskEnv.valid x.1 x.2 = true) := by
  intro s k v s' dropped hs hw _ hp
  have h1 : (s ++ [(k, v)], ([] : List (UInt8 × Bytes))) = (s', dropped) := Option.some.inj hp
  have h2 : s ++ [(k, v)] = s' := congrArg Prod.fst h1
  intro x hx
  rw [← h2] at hx
  rcases List.mem_append.1 hx with hx | hx
  · exact hs x hx
  · rw [List.mem_singleton] at hx; subst hx; exact hw

end Verif.Props
