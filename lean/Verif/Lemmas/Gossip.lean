import Verif.Lemmas.Distance
import Verif.Lemmas.Sort
import Verif.Lemmas.QueryFinish
import Verif.Props.GossipSpec

/-! # Lemmas on the choice of gossip recipients -/

set_option linter.unusedSectionVars false

namespace Verif.Gossip
open Verif.KBucket Verif.Props.GossipSpec

variable {E : Type} [DecidableEq E]

/-- All that a list of pairs gives to `e`. -/
def get (l : List (E × List Id)) (e : E) : List Id := (l.filter fun x => decide (x.1 = e)).flatMap (·.2)

theorem get_append (a b : List (E × List Id)) (e : E) : get (a ++ b) e = get a e ++ get b e := by
  simp [get]

theorem get_cons (x : E × List Id) (a : List (E × List Id)) (e : E) :
    get (x :: a) e = (if x.1 = e then x.2 else []) ++ get a e := by
  unfold get
  by_cases h : x.1 = e <;> simp [h]

theorem get_nil (e : E) : get ([] : List (E × List Id)) e = [] := rfl

theorem get_of_not_mem {l : List (E × List Id)} {e : E} (h : e ∉ l.map (·.1)) : get l e = [] := by
  induction l with
  | nil => rfl
  | cons x l ih =>
    rw [List.map_cons, List.mem_cons, not_or] at h
    rw [get_cons, if_neg (fun hh => h.1 hh.symm), ih h.2]; rfl

theorem get_of_mem {l : List (E × List Id)} (hn : (l.map (·.1)).Nodup) {x : E × List Id} (hx : x ∈ l) :
    get l x.1 = x.2 := by
  induction l with
  | nil => cases hx
  | cons y l ih =>
    rw [List.map_cons, List.nodup_cons] at hn
    rw [get_cons]
    rcases List.mem_cons.1 hx with rfl | hx
    · rw [if_pos rfl, get_of_not_mem hn.1, List.append_nil]
    · rw [if_neg, ih hn.2 hx]
      · rfl
      · intro h; exact hn.1 (h ▸ List.mem_map_of_mem hx)

theorem keys_extend (m : List (E × List Id)) (e : E) (ids : List Id) :
    (extendEntry m e ids).map (·.1) = if e ∈ m.map (·.1) then m.map (·.1) else m.map (·.1) ++ [e] := by
  induction m with
  | nil => simp [extendEntry]
  | cons x m ih =>
    obtain ⟨y, l⟩ := x
    rw [extendEntry]
    by_cases h : y = e
    · simp [h]
    · rw [if_neg h, List.map_cons, ih]
      by_cases h2 : e ∈ m.map (·.1)
      · rw [if_pos h2, if_pos (by rw [List.map_cons]; exact List.mem_cons_of_mem _ h2)]; rfl
      · rw [if_neg h2, if_neg]
        · rfl
        · rw [List.map_cons, List.mem_cons, not_or]; exact ⟨fun hh => h hh.symm, h2⟩

theorem nodup_extend {m : List (E × List Id)} (hn : (m.map (·.1)).Nodup) (e : E) (ids : List Id) :
    ((extendEntry m e ids).map (·.1)).Nodup := by
  rw [keys_extend]
  split
  · exact hn
  · next h =>
    rw [List.nodup_append]
    refine ⟨hn, by simp, ?_⟩
    intro a ha b hb
    rw [List.mem_singleton] at hb
    rintro rfl; exact h (hb ▸ ha)

theorem get_extend {m : List (E × List Id)} (hn : (m.map (·.1)).Nodup) (e : E) (ids : List Id) (e' : E) :
    get (extendEntry m e ids) e' = get m e' ++ if e = e' then ids else [] := by
  induction m with
  | nil => rw [extendEntry, get_cons, get_nil]; simp
  | cons x m ih =>
    obtain ⟨y, l⟩ := x
    rw [List.map_cons, List.nodup_cons] at hn
    rw [extendEntry]
    by_cases h : y = e
    · subst h
      rw [if_pos rfl, get_cons, get_cons]
      by_cases h2 : y = e'
      · subst h2
        simp [get_of_not_mem hn.1]
      · simp [h2]
    · rw [if_neg h, get_cons, get_cons, ih hn.2, List.append_assoc]

theorem fold_extend (l : List (E × List Id)) : ∀ (m : List (E × List Id)), (m.map (·.1)).Nodup →
    ((l.foldl (fun m x => extendEntry m x.1 x.2) m).map (·.1)).Nodup ∧
    (∀ e, get (l.foldl (fun m x => extendEntry m x.1 x.2) m) e = get m e ++ get l e) ∧
    ∀ e, e ∈ (l.foldl (fun m x => extendEntry m x.1 x.2) m).map (·.1) ↔
      e ∈ m.map (·.1) ∨ e ∈ l.map (·.1) := by
  induction l with
  | nil => intro m hm; exact ⟨hm, fun e => by simp [get_nil], fun e => by simp⟩
  | cons x l ih =>
    intro m hm
    obtain ⟨h1, h2, h3⟩ := ih (extendEntry m x.1 x.2) (nodup_extend hm _ _)
    refine ⟨h1, fun e => ?_, fun e => ?_⟩
    · rw [List.foldl_cons, h2, get_extend hm, get_cons, List.append_assoc]
    · rw [List.foldl_cons, h3, keys_extend, List.map_cons, List.mem_cons]
      split
      · next h =>
        constructor
        · rintro (h4 | h4)
          · exact .inl h4
          · exact .inr (.inr h4)
        · rintro (h4 | rfl | h4)
          · exact .inl h4
          · exact .inl h
          · exact .inr h4
      · rw [List.mem_append, List.mem_singleton, or_assoc]

/-! ## Where the ids come from (no assumption) -/

theorem mem_extend {m : List (E × List Id)} {e : E} {ids : List Id} {x : E × List Id}
    (hx : x ∈ extendEntry m e ids) {id : Id} (hid : id ∈ x.2) :
    id ∈ ids ∨ ∃ y ∈ m, id ∈ y.2 := by
  induction m with
  | nil =>
    rw [extendEntry, List.mem_singleton] at hx
    subst hx; exact .inl hid
  | cons y m ih =>
    obtain ⟨z, l⟩ := y
    rw [extendEntry] at hx
    split at hx
    · rcases List.mem_cons.1 hx with rfl | hx
      · rcases List.mem_append.1 hid with h | h
        · exact .inr ⟨_, List.mem_cons_self, h⟩
        · exact .inl h
      · exact .inr ⟨_, List.mem_cons_of_mem _ hx, hid⟩
    · rcases List.mem_cons.1 hx with rfl | hx
      · exact .inr ⟨_, List.mem_cons_self, hid⟩
      · rcases ih hx with h | ⟨w, hw, h⟩
        · exact .inl h
        · exact .inr ⟨w, List.mem_cons_of_mem _ hw, h⟩

theorem mem_fold {l : List (E × List Id)} : ∀ {m : List (E × List Id)} {x : E × List Id},
    x ∈ l.foldl (fun m x => extendEntry m x.1 x.2) m → ∀ {id : Id}, id ∈ x.2 →
      (∃ y ∈ l, id ∈ y.2) ∨ ∃ y ∈ m, id ∈ y.2 := by
  induction l with
  | nil => intro m x hx id hid; exact .inr ⟨x, hx, hid⟩
  | cons z l ih =>
    intro m x hx id hid
    rcases ih hx hid with ⟨y, hy, h⟩ | ⟨y, hy, h⟩
    · exact .inl ⟨y, List.mem_cons_of_mem _ hy, h⟩
    · rcases mem_extend hy h with h | h
      · exact .inl ⟨z, List.mem_cons_self, h⟩
      · exact .inr h

theorem mem_fold_one {l : List E} {i : Id} : ∀ {m : List (E × List Id)} {x : E × List Id},
    x ∈ l.foldl (fun m e => extendEntry m e [i]) m → ∀ {id : Id}, id ∈ x.2 →
      id = i ∨ ∃ y ∈ m, id ∈ y.2 := by
  induction l with
  | nil => intro m x hx id hid; exact .inr ⟨x, hx, hid⟩
  | cons z l ih =>
    intro m x hx id hid
    rcases ih hx hid with h | ⟨y, hy, h⟩
    · exact .inl h
    · rcases mem_extend hy h with h | h
      · exact .inl (by simpa using h)
      · exact .inr h

theorem mem_loop {nodeId : E → Id} {table : List (Entry E)} {ch : Choices E} {ids : List Id} :
    ∀ (rest : List Id) {i : Nat} {taken : List Id} {m : List (E × List Id)} {x : E × List Id},
    x ∈ neighborhoodLoop nodeId table ch ids i taken m rest → ∀ {id : Id}, id ∈ x.2 →
      id ∈ rest ∨ ∃ y ∈ m, id ∈ y.2 := by
  intro rest
  induction rest with
  | nil => intro i taken m x hx id hid; exact .inr ⟨x, hx, hid⟩
  | cons a rest ih =>
    intro i taken m x hx id hid
    rw [neighborhoodLoop] at hx
    rcases ih hx hid with h | ⟨y, hy, h⟩
    · exact .inl (List.mem_cons_of_mem _ h)
    · generalize (if a ∈ taken then [] else (batchInterested nodeId table ids a).getD []) = it at hy
      split at hy
      · exact .inr ⟨y, hy, h⟩
      · rcases mem_fold_one hy h with rfl | h
        · exact .inl List.mem_cons_self
        · exact .inr h

theorem mem_random {table : List (Entry E)} {ch : Choices E} {ids : List Id} {x : E × List Id}
    (hx : x ∈ random table ch ids) : x.2 = ids := by
  have key : ∀ (l : List E) (m : List (E × List Id)), (∀ y ∈ m, y.2 = ids) →
      ∀ y ∈ l.foldl (fun m peer => if m.any (fun x => decide (x.1 = peer)) then m
        else m ++ [(peer, ids)]) m, y.2 = ids := by
    intro l
    induction l with
    | nil => intro m hm y hy; exact hm y hy
    | cons e l ih =>
      intro m hm y hy
      rw [List.foldl_cons] at hy
      refine ih _ ?_ y hy
      split
      · exact hm
      · intro z hz
        rcases List.mem_append.1 hz with hz | hz
        · exact hm z hz
        · rw [List.mem_singleton] at hz; subst hz; rfl
  unfold random at hx
  split at hx
  · cases hx
  · exact key _ _ (by simp) x hx

theorem mem_peerIds {nodeId : E → Id} {table : List (Entry E)} {ch : Choices E} {content : List Item}
    {x : E × List Id} (hx : x ∈ peerIds nodeId table ch content) {id : Id} (hid : id ∈ x.2) :
    id ∈ content.map (·.id) := by
  have sub : ∀ (p : Item → Bool), id ∈ (content.filter p).map (·.id) → id ∈ content.map (·.id) := by
    intro p h
    obtain ⟨it, hit, rfl⟩ := List.mem_map.1 h
    exact List.mem_map_of_mem (List.mem_filter.1 hit).1
  rcases mem_fold hx hid with ⟨y, hy, h⟩ | ⟨y, hy, h⟩
  · rcases List.mem_append.1 hy with hy | hy
    · unfold neighborhood at hy
      split at hy
      · cases hy
      · rcases mem_loop _ hy h with h | ⟨z, hz, _⟩
        · exact sub _ h
        · cases hz
    · rw [mem_random hy] at h
      exact sub _ h
  · cases hy

theorem mapM_total {α β : Type} {f : α → Option β} {g : α → β} : ∀ {l : List α},
    (∀ x ∈ l, f x = some (g x)) → l.mapM f = some (l.map g)
  | [], _ => rfl
  | a :: l, h => by
    rw [List.mapM_cons, h a List.mem_cons_self,
      mapM_total (fun x hx => h x (List.mem_cons_of_mem _ hx))]
    rfl

/-- The raw key and value of an id of the batch. -/
def rawOf (content : List Item) (id : Id) : Bytes × Bytes := (rawContent content id).getD ([], [])

theorem rawContent_mem {content : List Item} {id : Id} (h : id ∈ content.map (·.id)) :
    ∃ it ∈ content, it.id = id ∧ rawContent content id = some (it.key, it.value) := by
  unfold rawContent
  cases hf : content.reverse.find? fun it => decide (it.id = id) with
  | none =>
    rw [List.find?_eq_none] at hf
    obtain ⟨it, hit, rfl⟩ := List.mem_map.1 h
    exact absurd (hf it (List.mem_reverse.2 hit)) (by simp)
  | some it =>
    exact ⟨it, List.mem_reverse.1 (List.mem_of_find?_eq_some hf),
      by simpa using List.find?_some hf, rfl⟩

theorem gossip_eq (nodeId : E → Id) (table : List (Entry E)) (ch : Choices E) (content : List Item) :
    gossipRecipients nodeId table ch content =
      some ((peerIds nodeId table ch content).map fun x =>
        (x.1, (x.2.take maxKeysPerOffer).map (rawOf content))) := by
  unfold gossipRecipients
  apply mapM_total
  intro x hx
  rw [mapM_total (g := rawOf content)]
  · rfl
  · intro id hid
    obtain ⟨it, _, _, h⟩ := rawContent_mem (mem_peerIds hx (List.mem_of_mem_take hid))
    rw [rawOf, h]; rfl

theorem eq_of_nodup_map {α β : Type} {f : α → β} : ∀ {l : List α}, (l.map f).Nodup →
    ∀ {a b : α}, a ∈ l → b ∈ l → f a = f b → a = b
  | [], _, _, _, ha, _, _ => by cases ha
  | x :: l, hn, a, b, ha, hb, h => by
    rw [List.map_cons, List.nodup_cons] at hn
    rcases List.mem_cons.1 ha with rfl | ha' <;> rcases List.mem_cons.1 hb with rfl | hb'
    · rfl
    · exact absurd (h ▸ List.mem_map_of_mem hb') hn.1
    · exact absurd (h ▸ List.mem_map_of_mem ha') hn.1
    · exact eq_of_nodup_map hn.2 ha' hb' h

theorem rawOf_item {content : List Item} (hn : (content.map (·.id)).Nodup) {it : Item}
    (h : it ∈ content) : rawOf content it.id = (it.key, it.value) := by
  obtain ⟨it', h', e, hr⟩ := rawContent_mem (List.mem_map_of_mem (f := (·.id)) h)
  rw [eq_of_nodup_map hn h' h e] at hr
  rw [rawOf, hr]; rfl

/-! ## Choosing the recipients of one item -/

theorem chosen_mem {n : Nat} {l r : List E} (h : Chosen n l r) {e : E} (he : e ∈ r) : e ∈ l := by
  obtain ⟨_, s, hp, hs⟩ := h
  exact hs.subset (hp.mem_iff.1 he)

theorem chosen_nodup {n : Nat} {l r : List E} (h : Chosen n l r) (hn : l.Nodup) : r.Nodup := by
  obtain ⟨_, s, hp, hs⟩ := h
  exact hp.nodup_iff.2 (hs.nodup hn)

theorem chosen_all {n : Nat} {l r : List E} (h : Chosen n l r) (hl : l.length ≤ n) {e : E}
    (he : e ∈ l) : e ∈ r := by
  obtain ⟨hlen, s, hp, hs⟩ := h
  rw [Nat.min_eq_right hl] at hlen
  have : s = l := hs.eq_of_length (by rw [← hp.length_eq, hlen])
  exact hp.mem_iff.2 (this ▸ he)

variable {nodeId : E → Id} {choose : Nat → List E → List E} {cid : Id} {peers : List E}

theorem select_mem (hc : ∀ n l, Chosen n l (choose n l)) {e : E}
    (h : e ∈ selectRecipients nodeId choose cid peers) : e ∈ peers := by
  unfold selectRecipients at h
  split at h
  · exact h
  · rcases List.mem_append.1 h with h | h
    · exact mem_sortBy.1 (List.mem_of_mem_take h)
    · exact mem_sortBy.1 (List.mem_of_mem_drop (chosen_mem (hc _ _) h))

theorem select_nodup (hc : ∀ n l, Chosen n l (choose n l)) (hn : peers.Nodup) :
    (selectRecipients nodeId choose cid peers).Nodup := by
  unfold selectRecipients
  split
  · exact hn
  · have hs : (sortBy (fun a b : E =>
      decide (xorDistance cid (nodeId a) ≤ xorDistance cid (nodeId b))) peers).Nodup :=
      (sortBy_perm peers).nodup_iff.2 hn
    dsimp only
    rw [← List.take_append_drop numClosest (sortBy _ _), List.nodup_append] at hs
    rw [List.nodup_append]
    refine ⟨hs.1, chosen_nodup (hc _ _) hs.2.1, ?_⟩
    intro a ha b hb
    exact hs.2.2 a ha b (chosen_mem (hc _ _) hb)

theorem select_length (hc : ∀ n l, Chosen n l (choose n l)) :
    (selectRecipients nodeId choose cid peers).length = min 8 peers.length := by
  unfold selectRecipients
  split
  · next h => simp only [numClosest, numFarther] at h; omega
  · next h =>
    dsimp only
    rw [List.length_append, List.length_take, (hc _ _).1, List.length_drop, length_sortBy]
    simp only [numClosest, numFarther] at *
    omega

theorem select_all (h : peers.length ≤ 8) : selectRecipients nodeId choose cid peers = peers := by
  unfold selectRecipients
  exact if_pos h

/-- A peer with fewer than four peers strictly closer is selected. -/
theorem select_closest (hn : (peers.map nodeId).Nodup) {e : E} (he : e ∈ peers)
    (h4 : (peers.filter fun p =>
      decide (xorDistance cid (nodeId p) < xorDistance cid (nodeId e))).length < 4) :
    e ∈ selectRecipients nodeId choose cid peers := by
  unfold selectRecipients
  split
  · exact he
  · next hl =>
    dsimp only
    have hsrt := sortBy_key_sorted (fun a : E => xorDistance cid (nodeId a)) peers
    have hperm := sortBy_perm (le := fun a b : E =>
      decide (xorDistance cid (nodeId a) ≤ xorDistance cid (nodeId b))) peers
    generalize sortBy (fun a b : E =>
      decide (xorDistance cid (nodeId a) ≤ xorDistance cid (nodeId b))) peers = s at *
    rw [List.mem_append]
    left
    apply Classical.byContradiction
    intro hne
    have hes : e ∈ s := hperm.mem_iff.2 he
    have hed : e ∈ s.drop numClosest := by
      rw [← List.take_append_drop numClosest s, List.mem_append] at hes
      exact hes.resolve_left hne
    rw [← List.take_append_drop numClosest s, List.pairwise_append] at hsrt
    have hns : (s.map nodeId).Nodup := (hperm.map nodeId).nodup_iff.2 hn
    have hall : ∀ a ∈ s.take numClosest,
        decide (xorDistance cid (nodeId a) < xorDistance cid (nodeId e)) = true := by
      intro a ha
      rw [decide_eq_true_eq]
      have hle := hsrt.2.2 a ha e hed
      rcases Nat.lt_or_ge (xorDistance cid (nodeId a)) (xorDistance cid (nodeId e)) with h | h
      · exact h
      · have := xorDistance_inj (Nat.le_antisymm hle h)
        have := eq_of_nodup_map hns (List.mem_of_mem_take ha) hes this
        exact absurd (this ▸ ha) hne
    have hf := (hperm.filter fun p =>
      decide (xorDistance cid (nodeId p) < xorDistance cid (nodeId e))).length_eq
    rw [← List.take_append_drop numClosest s, List.filter_append,
      List.filter_eq_self.2 hall, List.length_append, List.length_take, hperm.length_eq] at hf
    simp only [numClosest, numFarther] at *
    omega

/-! ## The neighborhood part -/

variable {table : List (Entry E)} {ch : Choices E}

theorem interested_nodup (hd : DistinctPeers nodeId table) (p : Entry E → Bool) :
    (((table.filter p).map (·.enr)).map nodeId).Nodup := by
  rw [List.map_map]
  exact (List.filter_sublist.map _).nodup hd

theorem nodup_of_map {α β : Type} {f : α → β} {l : List α} (h : (l.map f).Nodup) : l.Nodup := by
  unfold List.Nodup at *
  rw [List.pairwise_map] at h
  exact h.imp fun hne he => hne (by rw [he])

theorem filter_eq_single {ids : List Id} (hn : ids.Nodup) {id : Id} (h : id ∈ ids) :
    ids.filter (fun i => decide (i = id)) = [id] := by
  induction ids with
  | nil => cases h
  | cons a ids ih =>
    rw [List.nodup_cons] at hn
    rw [List.filter_cons]
    rcases List.mem_cons.1 h with rfl | h
    · simp only [decide_true, if_true]
      congr 1
      rw [List.filter_eq_nil_iff]
      intro x hx hh
      rw [decide_eq_true_eq] at hh
      exact hn.1 (hh ▸ hx)
    · have : a ≠ id := by rintro rfl; exact hn.1 h
      simp only [this, decide_false]
      exact ih hn.2 h

theorem batch_eq {ids : List Id} (hn : ids.Nodup) {id : Id} (h : id ∈ ids) :
    batchInterested nodeId table ids id = some (covering nodeId table id) := by
  unfold batchInterested covering
  rw [if_pos h]
  congr 1
  have hin : ∀ e : Entry E, (ids.filter fun i => decide (i = id) && e.connected &&
      decide (xorDistance i (nodeId e.enr) ≤ e.radius)) =
      if e.connected && decide (xorDistance id (nodeId e.enr) ≤ e.radius) then [id] else [] := by
    intro e
    have : (ids.filter fun i => decide (i = id) && e.connected &&
      decide (xorDistance i (nodeId e.enr) ≤ e.radius)) =
      (ids.filter (fun i => decide (i = id))).filter fun i =>
        e.connected && decide (xorDistance i (nodeId e.enr) ≤ e.radius) := by
      rw [List.filter_filter]
      congr 1; funext i
      cases decide (i = id) <;> simp
    rw [this, filter_eq_single hn h, List.filter_cons, List.filter_nil]
  simp only [hin]
  clear hin h
  induction table with
  | nil => rfl
  | cons e t ih =>
    rw [List.flatMap_cons, ih, List.filter_cons]
    by_cases hc : (e.connected && decide (xorDistance id (nodeId e.enr) ≤ e.radius)) = true
    · simp [hc]
    · simp [hc]

/-- The recipients of the `i`-th item. -/
def sel (nodeId : E → Id) (table : List (Entry E)) (ch : Choices E) (i : Nat) (id : Id) : List E :=
  selectRecipients nodeId (ch.farther i) id (covering nodeId table id)

/-- The assignments made by the loop, in order. -/
def pairs (nodeId : E → Id) (table : List (Entry E)) (ch : Choices E) : Nat → List Id →
    List (E × List Id)
  | _, [] => []
  | i, id :: rest => (sel nodeId table ch i id).map (fun e => (e, [id])) ++
      pairs nodeId table ch (i + 1) rest

theorem loop_eq {ids : List Id} (hn : ids.Nodup) : ∀ (rest : List Id) (i : Nat) (taken : List Id)
    (m : List (E × List Id)), (∀ x ∈ rest, x ∈ ids ∧ x ∉ taken) → rest.Nodup →
    neighborhoodLoop nodeId table ch ids i taken m rest =
      (pairs nodeId table ch i rest).foldl (fun m x => extendEntry m x.1 x.2) m := by
  intro rest
  induction rest with
  | nil => intros; rfl
  | cons id rest ih =>
    intro i taken m h hnr
    rw [List.nodup_cons] at hnr
    have h0 := h id List.mem_cons_self
    rw [neighborhoodLoop, if_neg h0.2, batch_eq hn h0.1]
    dsimp only [Option.getD]
    rw [ih _ _ _ _ hnr.2, pairs, List.foldl_append, List.foldl_map]
    · congr 1
      split
      · next he => simp [sel, he, selectRecipients]
      · rfl
    · intro x hx
      refine ⟨(h x (List.mem_cons_of_mem _ hx)).1, ?_⟩
      rw [List.mem_cons, not_or]
      exact ⟨fun hh => hnr.1 (hh ▸ hx), (h x (List.mem_cons_of_mem _ hx)).2⟩

theorem neighborhood_eq {ids : List Id} (hn : ids.Nodup) :
    neighborhood nodeId table ch ids =
      (pairs nodeId table ch 0 ids).foldl (fun m x => extendEntry m x.1 x.2) [] := by
  unfold neighborhood
  split
  · next h => subst h; rfl
  · exact loop_eq hn ids 0 [] [] (fun x hx => ⟨hx, by simp⟩) hn

theorem get_map_single {l : List E} (hn : l.Nodup) (id : Id) (e : E) :
    get (l.map fun e => (e, [id])) e = if e ∈ l then [id] else [] := by
  induction l with
  | nil => rfl
  | cons a l ih =>
    rw [List.nodup_cons] at hn
    rw [List.map_cons, get_cons, ih hn.2]
    by_cases h : a = e
    · subst h; simp [hn.1]
    · have : ¬ e = a := fun hh => h hh.symm
      simp [h, this]

theorem sel_nodup (hf : Fair ch) (hd : DistinctPeers nodeId table) (i : Nat) (id : Id) :
    (sel nodeId table ch i id).Nodup :=
  select_nodup (hf.1 i) (nodup_of_map (interested_nodup hd _))

theorem get_pairs (hf : Fair ch) (hd : DistinctPeers nodeId table) (e : E) :
    ∀ (rest : List Id) (i : Nat), rest.Nodup →
    (get (pairs nodeId table ch i rest) e).Sublist rest ∧
    ∀ (j : Nat) (id : Id), rest[j]? = some id →
      (id ∈ get (pairs nodeId table ch i rest) e ↔ e ∈ sel nodeId table ch (i + j) id) := by
  intro rest
  induction rest with
  | nil => intro i _; exact ⟨List.Sublist.refl _, fun j id h => by simp at h⟩
  | cons a rest ih =>
    intro i hn
    rw [List.nodup_cons] at hn
    obtain ⟨h1, h2⟩ := ih (i + 1) hn.2
    rw [pairs, get_append, get_map_single (sel_nodup hf hd i a)]
    refine ⟨?_, ?_⟩
    · split
      · exact h1.cons_cons a
      · exact h1.cons a
    · intro j id hj
      rw [List.mem_append]
      cases j with
      | zero =>
        simp only [List.getElem?_cons_zero, Option.some.injEq] at hj
        subst hj
        constructor
        · rintro (h | h)
          · split at h
            · assumption
            · cases h
          · exact absurd (h1.subset h) hn.1
        · intro h
          left; rw [Nat.add_zero] at h; rw [if_pos h]; simp
      | succ j =>
        rw [List.getElem?_cons_succ] at hj
        have hm : id ∈ rest := List.mem_of_getElem? hj
        rw [show i + (j + 1) = i + 1 + j by omega, ← h2 j id hj]
        constructor
        · rintro (h | h)
          · split at h
            · rw [List.mem_singleton] at h; subst h; exact absurd hm hn.1
            · cases h
          · exact h
        · exact .inr

theorem pairs_ne {x : E × List Id} : ∀ {rest : List Id} {i : Nat},
    x ∈ pairs nodeId table ch i rest → x.2 ≠ []
  | [], _, h => by cases h
  | id :: rest, i, h => by
    rw [pairs, List.mem_append] at h
    rcases h with h | h
    · obtain ⟨e, _, rfl⟩ := List.mem_map.1 h; simp
    · exact pairs_ne h

theorem get_ne_nil {l : List (E × List Id)} (h : ∀ x ∈ l, x.2 ≠ []) {e : E} (he : e ∈ l.map (·.1)) :
    get l e ≠ [] := by
  obtain ⟨x, hx, rfl⟩ := List.mem_map.1 he
  intro h0
  unfold get at h0
  rw [List.flatMap_eq_nil_iff] at h0
  exact h x hx (h0 x (by simp [hx]))

/-! ## The random part -/

theorem random_eq (hf : Fair ch) (hd : DistinctPeers nodeId table) (ids : List Id) :
    random table ch ids =
      if ids = [] then [] else (ch.peers numPeers (online table)).map fun p => (p, ids) := by
  have hn : (ch.peers numPeers (online table)).Nodup :=
    chosen_nodup (hf.2 _ _) (nodup_of_map (interested_nodup hd _))
  have key : ∀ (l : List E) (m : List (E × List Id)), l.Nodup → (∀ p ∈ l, p ∉ m.map (·.1)) →
      l.foldl (fun m peer => if m.any (fun x => decide (x.1 = peer)) then m else m ++ [(peer, ids)]) m =
        m ++ l.map fun p => (p, ids) := by
    intro l
    induction l with
    | nil => intro m _ _; simp
    | cons p l ih =>
      intro m hl hm
      rw [List.nodup_cons] at hl
      have h0 := hm p List.mem_cons_self
      rw [List.foldl_cons, if_neg, ih _ hl.2]
      · simp
      · intro q hq
        rw [List.map_append, List.mem_append, not_or]
        refine ⟨hm q (List.mem_cons_of_mem _ hq), ?_⟩
        simp only [List.map_cons, List.map_nil, List.mem_singleton]
        rintro rfl; exact hl.1 hq
      · simp only [List.any_eq_true, decide_eq_true_eq, not_exists, not_and]
        intro x hx hxp
        exact h0 (hxp ▸ List.mem_map_of_mem hx)
  unfold random
  split
  · rfl
  · have := key (randomPeers table ch numPeers) [] hn (by simp)
    rw [this]; rfl

/-! ## Both together -/

/-- The ids of the items affected by the radius, and of the others. -/
def nearIds (content : List Item) : List Id := (content.filter (·.affected)).map (·.id)
def farIds (content : List Item) : List Id := (content.filter fun it => !it.affected).map (·.id)

theorem nearIds_nodup {content : List Item} (h : (content.map (·.id)).Nodup) : (nearIds content).Nodup :=
  (List.filter_sublist.map _).nodup h

theorem near_far_length (content : List Item) :
    (nearIds content).length + (farIds content).length = content.length := by
  unfold nearIds farIds
  rw [List.length_map, List.length_map]
  induction content with
  | nil => rfl
  | cons a l ih =>
    rw [List.filter_cons, List.filter_cons, List.length_cons]
    cases a.affected <;> simp <;> omega

theorem peerIds_spec (hf : Fair ch) (hd : DistinctPeers nodeId table) {content : List Item}
    (hc : (content.map (·.id)).Nodup) :
    ((peerIds nodeId table ch content).map (·.1)).Nodup ∧
    (∀ x ∈ peerIds nodeId table ch content,
      x.2 = get (pairs nodeId table ch 0 (nearIds content)) x.1 ++
        (if x.1 ∈ ch.peers numPeers (online table) then farIds content else [])) ∧
    (∀ x ∈ peerIds nodeId table ch content, x.2 ≠ []) ∧
    ∀ e, e ∈ (peerIds nodeId table ch content).map (·.1) ↔
      get (pairs nodeId table ch 0 (nearIds content)) e ++
        (if e ∈ ch.peers numPeers (online table) then farIds content else []) ≠ [] := by
  have hn1 := nearIds_nodup hc
  have hN := fold_extend (pairs nodeId table ch 0 (nearIds content)) [] (by simp)
  rw [← neighborhood_eq hn1] at hN
  have hR : ∀ e, get (random table ch (farIds content)) e =
      if e ∈ ch.peers numPeers (online table) then farIds content else [] := by
    intro e
    rw [random_eq hf hd]
    split
    · next h => rw [h]; simp [get_nil]
    · have hpn : (ch.peers numPeers (online table)).Nodup :=
        chosen_nodup (hf.2 _ _) (nodup_of_map (interested_nodup hd _))
      split
      · next h =>
        exact get_of_mem (x := (e, farIds content)) (by rw [List.map_map]; simpa [Function.comp_def] using hpn)
          (List.mem_map_of_mem (f := fun p => (p, farIds content)) h)
      · next h =>
        apply get_of_not_mem
        simpa [Function.comp_def] using h
  have hA := fold_extend (neighborhood nodeId table ch (nearIds content) ++
    random table ch (farIds content)) [] (by simp)
  have hP : peerIds nodeId table ch content = (neighborhood nodeId table ch (nearIds content) ++
    random table ch (farIds content)).foldl (fun m x => extendEntry m x.1 x.2) [] := rfl
  rw [← hP] at hA
  obtain ⟨a1, a2, a3⟩ := hA
  have hget : ∀ e, get (peerIds nodeId table ch content) e =
      get (pairs nodeId table ch 0 (nearIds content)) e ++
        (if e ∈ ch.peers numPeers (online table) then farIds content else []) := by
    intro e
    rw [a2, get_nil, List.nil_append, get_append, hN.2.1, get_nil, List.nil_append, hR]
  have hall : ∀ x ∈ neighborhood nodeId table ch (nearIds content) ++
      random table ch (farIds content), x.2 ≠ [] := by
    intro x hx
    rcases List.mem_append.1 hx with hx | hx
    · rw [← get_of_mem hN.1 hx, hN.2.1, get_nil, List.nil_append]
      refine get_ne_nil (fun y hy => pairs_ne hy) ?_
      have := (hN.2.2 x.1).1 (List.mem_map_of_mem hx)
      simpa using this
    · rw [mem_random hx]
      rw [random_eq hf hd] at hx
      split at hx
      · cases hx
      · assumption
  have hne : ∀ e, e ∈ (peerIds nodeId table ch content).map (·.1) →
      get (peerIds nodeId table ch content) e ≠ [] := by
    intro e he
    rw [a3] at he
    rw [a2, get_nil, List.nil_append]
    exact get_ne_nil hall (by simpa using he)
  refine ⟨a1, ?_, ?_, ?_⟩
  · intro x hx
    rw [← hget, get_of_mem a1 hx]
  · intro x hx
    rw [← get_of_mem a1 hx]
    exact hne _ (List.mem_map_of_mem hx)
  · intro e
    rw [← hget]
    constructor
    · exact hne e
    · intro h
      apply Classical.byContradiction
      intro hn
      exact h (get_of_not_mem hn)

end Verif.Gossip
