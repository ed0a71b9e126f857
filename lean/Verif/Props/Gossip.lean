import Verif.Lemmas.Gossip

/-! # C19: who is offered new content

Specification: `Props/GossipSpec.lean`. `r` is the map from peers to the items offered to them. -/

set_option linter.unusedSectionVars false

namespace Verif.Props
open Verif.Gossip Verif.KBucket GossipSpec

variable {E : Type} [DecidableEq E]

/-- Choosing recipients never fails, whatever the batch, the table and the random choices. -/
theorem C19_no_abort (nodeId : E → Id) (table : List (Entry E)) (ch : Choices E)
    (content : List Item) : ∃ r, gossipRecipients nodeId table ch content = some r :=
  ⟨_, gossip_eq nodeId table ch content⟩

variable {nodeId : E → Id} {table : List (Entry E)} {ch : Choices E} {content : List Item}
  {r : List (E × List (Bytes × Bytes))}

/-- Every selected peer occurs once and is offered between 1 and 64 items, all of them items of the
batch. -/
theorem C19_offer_size (hf : Fair ch) (hd : DistinctPeers nodeId table) (hc : DistinctItems content)
    (hr : gossipRecipients nodeId table ch content = some r) :
    (r.map (·.1)).Nodup ∧ ∀ x ∈ r, 1 ≤ x.2.length ∧ x.2.length ≤ 64 ∧ (x.2.map (·.1)).Nodup ∧
      ∀ kv ∈ x.2, ∃ it ∈ content, (it.key, it.value) = kv := by
  rw [gossip_eq, Option.some.injEq] at hr
  subst hr
  obtain ⟨h1, h2, h3, _⟩ := peerIds_spec hf hd hc.1
  refine ⟨by rw [List.map_map]; exact h1, ?_⟩
  intro x hx
  obtain ⟨y, hy, rfl⟩ := List.mem_map.1 hx
  have hids : ∀ id ∈ y.2.take maxKeysPerOffer, ∃ it ∈ content, it.id = id ∧
      rawOf content id = (it.key, it.value) := by
    intro id hid
    obtain ⟨it, hit, rfl⟩ := List.mem_map.1 (mem_peerIds hy (List.mem_of_mem_take hid))
    exact ⟨it, hit, rfl, rawOf_item hc.1 hit⟩
  have hyn : y.2.Nodup := by
    rw [h2 y hy, List.nodup_append]
    have hg := (get_pairs hf hd y.1 (nearIds content) 0 (nearIds_nodup hc.1)).1
    refine ⟨hg.nodup (nearIds_nodup hc.1), ?_, ?_⟩
    · split
      · exact (List.filter_sublist.map _).nodup hc.1
      · exact List.nodup_nil
    · intro a ha b hb
      split at hb
      · rintro rfl
        obtain ⟨i1, m1, e1⟩ := List.mem_map.1 (hg.subset ha)
        obtain ⟨i2, m2, e2⟩ := List.mem_map.1 hb
        rw [List.mem_filter] at m1 m2
        have := eq_of_nodup_map hc.1 m1.1 m2.1 (e1.trans e2.symm)
        subst this
        simp [m1.2] at m2
      · cases hb
  refine ⟨?_, ?_, ?_, ?_⟩
  · have := List.length_pos_iff.2 (h3 y hy)
    simp only [List.length_map, List.length_take, maxKeysPerOffer]; omega
  · simp only [List.length_map, List.length_take, maxKeysPerOffer]; omega
  · have hn2 : (y.2.take maxKeysPerOffer).Nodup := (List.take_sublist _ _).nodup hyn
    generalize y.2.take maxKeysPerOffer = l at hids hn2
    rw [List.map_map]
    unfold List.Nodup
    rw [List.pairwise_map]
    refine List.Pairwise.imp_of_mem ?_ hn2
    intro a b ha hb hne he
    obtain ⟨i1, m1, e1, r1⟩ := hids a ha
    obtain ⟨i2, m2, e2, r2⟩ := hids b hb
    simp only [Function.comp, r1, r2] at he
    have := eq_of_nodup_map hc.2 m1 m2 he
    subst this
    exact hne (e1.symm.trans e2)
  · intro kv hkv
    obtain ⟨id, hid, rfl⟩ := List.mem_map.1 hkv
    obtain ⟨it, hit, _, e⟩ := hids id hid
    exact ⟨it, hit, e.symm⟩

private theorem mem_offered (hf : Fair ch) (hd : DistinctPeers nodeId table) (hc : DistinctItems content)
    {x : E × List Id} (hx : x ∈ peerIds nodeId table ch content) {it : Item} (hit : it ∈ content)
    (n : Nat) :
    (it.key, it.value) ∈ (x.2.take n).map (rawOf content) ↔ it.id ∈ x.2.take n := by
  constructor
  · intro h
    obtain ⟨id, hid, e⟩ := List.mem_map.1 h
    obtain ⟨it', hit', rfl⟩ := List.mem_map.1 (mem_peerIds hx (List.mem_of_mem_take hid))
    rw [rawOf_item hc.1 hit'] at e
    have := eq_of_nodup_map hc.2 hit' hit (congrArg Prod.fst e)
    subst this; exact hid
  · intro h
    rw [← rawOf_item hc.1 hit]
    exact List.mem_map_of_mem h

private theorem near_mem {it : Item} (hit : it ∈ content) (ha : it.affected = true) :
    it.id ∈ nearIds content := List.mem_map_of_mem (List.mem_filter.2 ⟨hit, ha⟩)

private theorem far_mem {it : Item} (hit : it ∈ content) (ha : it.affected = false) :
    it.id ∈ farIds content := List.mem_map_of_mem (List.mem_filter.2 ⟨hit, by simp [ha]⟩)

private theorem near_not_far (hc : DistinctItems content) {it : Item} (hit : it ∈ content)
    (ha : it.affected = true) : it.id ∉ farIds content := by
  intro h
  obtain ⟨i2, m2, e2⟩ := List.mem_map.1 h
  rw [List.mem_filter] at m2
  have := eq_of_nodup_map hc.1 m2.1 hit e2
  subst this
  simp [ha] at m2

private theorem far_not_near (hc : DistinctItems content) {it : Item} (hit : it ∈ content)
    (ha : it.affected = false) : it.id ∉ nearIds content := by
  intro h
  obtain ⟨i2, m2, e2⟩ := List.mem_map.1 h
  rw [List.mem_filter] at m2
  have := eq_of_nodup_map hc.1 m2.1 hit e2
  subst this
  simp [ha] at m2

/-- A peer that is offered an item is a connected peer of the routing table; for content that is
affected by the radius its advertised radius covers the item. -/
theorem C19_recipient (hf : Fair ch) (hd : DistinctPeers nodeId table) (hc : DistinctItems content)
    (hr : gossipRecipients nodeId table ch content = some r) {it : Item} (hit : it ∈ content) {e : E}
    (he : e ∈ receivers r it) :
    ∃ entry ∈ table, entry.enr = e ∧ entry.connected = true ∧
      (it.affected = true → xorDistance it.id (nodeId e) ≤ entry.radius) := by
  rw [gossip_eq, Option.some.injEq] at hr
  subst hr
  obtain ⟨h1, h2, h3, _⟩ := peerIds_spec hf hd hc.1
  obtain ⟨x, hx, rfl⟩ := List.mem_map.1 he
  rw [List.mem_filter, decide_eq_true_eq] at hx
  obtain ⟨y, hy, rfl⟩ := List.mem_map.1 hx.1
  have hid := List.mem_of_mem_take ((mem_offered hf hd hc hy hit _).1 hx.2)
  rw [h2 y hy, List.mem_append] at hid
  cases ha : it.affected with
  | true =>
    rcases hid with hid | hid
    · obtain ⟨j, hj⟩ := List.mem_iff_getElem?.1 (near_mem hit ha)
      have := (get_pairs hf hd y.1 (nearIds content) 0 (nearIds_nodup hc.1)).2 j it.id hj
      have hm := select_mem (hf.1 _) (this.1 hid)
      obtain ⟨entry, hen, e1⟩ := List.mem_map.1 hm
      rw [List.mem_filter] at hen
      simp only [Bool.and_eq_true, decide_eq_true_eq] at hen
      exact ⟨entry, hen.1, e1, hen.2.1, fun _ => e1 ▸ hen.2.2⟩
    · split at hid
      · exact absurd hid (near_not_far hc hit ha)
      · cases hid
  | false =>
    rcases hid with hid | hid
    · exact absurd ((get_pairs hf hd y.1 (nearIds content) 0 (nearIds_nodup hc.1)).1.subset hid)
        (far_not_near hc hit ha)
    · split at hid
      · next hp =>
        obtain ⟨entry, hen, e1⟩ := List.mem_map.1 (chosen_mem (hf.2 _ _) hp)
        rw [List.mem_filter] at hen
        exact ⟨entry, hen.1, e1, hen.2, fun h => by cases h⟩
      · cases hid

/-- The peers offered an item are, without repetition, the members of any duplicate-free list with
the same members. -/
private theorem receivers_perm (hf : Fair ch) (hd : DistinctPeers nodeId table)
    (hc : DistinctItems content) (hr : gossipRecipients nodeId table ch content = some r)
    (hlen : content.length ≤ 64) {it : Item} (hit : it ∈ content) {l : List E} (hl : l.Nodup)
    (hmem : ∀ e, e ∈ l ↔ it.id ∈ get (pairs nodeId table ch 0 (nearIds content)) e ++
        (if e ∈ ch.peers numPeers (online table) then farIds content else [])) :
    (receivers r it).length = l.length ∧ ∀ e, e ∈ receivers r it ↔ e ∈ l := by
  rw [gossip_eq, Option.some.injEq] at hr
  subst hr
  obtain ⟨h1, h2, h3, h4⟩ := peerIds_spec hf hd hc.1
  have htake : ∀ y ∈ peerIds nodeId table ch content, y.2.take maxKeysPerOffer = y.2 := by
    intro y hy
    apply List.take_of_length_le
    rw [h2 y hy, List.length_append]
    have hg := (get_pairs hf hd y.1 (nearIds content) 0 (nearIds_nodup hc.1)).1.length_le
    have hs := near_far_length content
    have : (if y.1 ∈ ch.peers numPeers (online table) then farIds content else []).length ≤
        (farIds content).length := by
      split <;> simp
    simp only [maxKeysPerOffer]; omega
  have hme : ∀ e, e ∈ receivers ((peerIds nodeId table ch content).map fun x =>
      (x.1, (x.2.take maxKeysPerOffer).map (rawOf content))) it ↔ e ∈ l := by
    intro e
    rw [hmem]
    constructor
    · intro he
      obtain ⟨x, hx, rfl⟩ := List.mem_map.1 he
      rw [List.mem_filter, decide_eq_true_eq] at hx
      obtain ⟨y, hy, rfl⟩ := List.mem_map.1 hx.1
      have hid := (mem_offered hf hd hc hy hit _).1 hx.2
      rw [htake y hy, h2 y hy] at hid
      exact hid
    · intro he
      obtain ⟨y, hy, rfl⟩ := List.mem_map.1 ((h4 e).2 (List.ne_nil_of_mem he))
      refine List.mem_map.2 ⟨(y.1, (y.2.take maxKeysPerOffer).map (rawOf content)), ?_, rfl⟩
      rw [List.mem_filter, decide_eq_true_eq]
      refine ⟨List.mem_map_of_mem (f := fun x : E × List Id =>
        (x.1, (x.2.take maxKeysPerOffer).map (rawOf content))) hy, ?_⟩
      rw [mem_offered hf hd hc hy hit, htake y hy, h2 y hy]
      exact he
  refine ⟨?_, hme⟩
  have hn : (receivers ((peerIds nodeId table ch content).map fun x =>
      (x.1, (x.2.take maxKeysPerOffer).map (rawOf content))) it).Nodup := by
    refine (List.filter_sublist.map _).nodup ?_
    rw [List.map_map]; exact h1
  exact Nat.le_antisymm (Verif.Query.nodup_subset_length hn fun x hx => (hme x).1 hx)
    (Verif.Query.nodup_subset_length hl fun x hx => (hme x).2 hx)

/-- Content affected by the radius, in a batch that one offer can carry: eight of the connected peers
whose radius covers it are offered it, or all of them when there are at most eight. -/
theorem C19_neighborhood (hf : Fair ch) (hd : DistinctPeers nodeId table) (hc : DistinctItems content)
    (hr : gossipRecipients nodeId table ch content = some r) (hlen : content.length ≤ 64)
    {it : Item} (hit : it ∈ content) (ha : it.affected = true) :
    (receivers r it).length = min 8 (covering nodeId table it.id).length ∧
    (∀ e ∈ receivers r it, e ∈ covering nodeId table it.id) ∧
    ((covering nodeId table it.id).length ≤ 8 →
      ∀ e ∈ covering nodeId table it.id, e ∈ receivers r it) ∧
    ∀ e ∈ covering nodeId table it.id,
      ((covering nodeId table it.id).filter fun p =>
        decide (xorDistance it.id (nodeId p) < xorDistance it.id (nodeId e))).length < 4 →
      e ∈ receivers r it := by
  obtain ⟨j, hj⟩ := List.mem_iff_getElem?.1 (near_mem hit ha)
  obtain ⟨p1, p2⟩ := receivers_perm hf hd hc hr hlen hit
    (l := sel nodeId table ch j it.id) (sel_nodup hf hd _ _) (by
      intro e
      have := (get_pairs hf hd e (nearIds content) 0 (nearIds_nodup hc.1)).2 j it.id hj
      rw [Nat.zero_add] at this
      rw [← this, List.mem_append]
      constructor
      · exact .inl
      · rintro (h | h)
        · exact h
        · split at h
          · exact absurd h (near_not_far hc hit ha)
          · cases h)
  refine ⟨p1.trans (select_length (hf.1 _)), ?_, ?_, ?_⟩
  · intro e he
    exact select_mem (hf.1 _) ((p2 e).1 he)
  · intro h8 e he
    rw [p2, sel, select_all h8]; exact he
  · intro e he h4
    rw [p2]
    exact select_closest (interested_nodup hd _) he h4

/-- Content not affected by the radius, in a batch that one offer can carry: eight connected peers are
offered it, or all of them when there are at most eight, and they are the same peers for all such
items of the batch. -/
theorem C19_random (hf : Fair ch) (hd : DistinctPeers nodeId table) (hc : DistinctItems content)
    (hr : gossipRecipients nodeId table ch content = some r) (hlen : content.length ≤ 64) :
    ∃ chosen : List E, chosen.length = min 8 (online table).length ∧
      ((online table).length ≤ 8 → ∀ e ∈ online table, e ∈ chosen) ∧
      (∀ e ∈ chosen, e ∈ online table) ∧
      ∀ it ∈ content, it.affected = false →
        (receivers r it).length = chosen.length ∧ ∀ e, e ∈ receivers r it ↔ e ∈ chosen := by
  refine ⟨ch.peers numPeers (online table), (hf.2 _ _).1, fun h e he => chosen_all (hf.2 _ _) h he,
    fun e he => chosen_mem (hf.2 _ _) he, ?_⟩
  intro it hit ha
  refine receivers_perm hf hd hc hr hlen hit
    (chosen_nodup (hf.2 _ _) (nodup_of_map (interested_nodup hd _))) ?_
  intro e
  rw [List.mem_append]
  constructor
  · intro h
    right; rw [if_pos h]; exact far_mem hit ha
  · rintro (h | h)
    · exact absurd ((get_pairs hf hd e (nearIds content) 0 (nearIds_nodup hc.1)).1.subset h)
        (far_not_near hc hit ha)
    · split at h
      · assumption
      · cases h

/-- Whatever the size of the batch, an item is offered to at most eight peers. -/
theorem C19_at_most_eight (hf : Fair ch) (hd : DistinctPeers nodeId table) (hc : DistinctItems content)
    (hr : gossipRecipients nodeId table ch content = some r) {it : Item} (hit : it ∈ content) :
    (receivers r it).length ≤ 8 := by
  rw [gossip_eq, Option.some.injEq] at hr
  subst hr
  obtain ⟨h1, h2, h3, h4⟩ := peerIds_spec hf hd hc.1
  have hn : (receivers ((peerIds nodeId table ch content).map fun x =>
      (x.1, (x.2.take maxKeysPerOffer).map (rawOf content))) it).Nodup := by
    refine (List.filter_sublist.map _).nodup ?_
    rw [List.map_map]; exact h1
  have hmem : ∀ e ∈ receivers ((peerIds nodeId table ch content).map fun x =>
      (x.1, (x.2.take maxKeysPerOffer).map (rawOf content))) it,
      it.id ∈ get (pairs nodeId table ch 0 (nearIds content)) e ++
        (if e ∈ ch.peers numPeers (online table) then farIds content else []) := by
    intro e he
    obtain ⟨x, hx, rfl⟩ := List.mem_map.1 he
    rw [List.mem_filter, decide_eq_true_eq] at hx
    obtain ⟨y, hy, rfl⟩ := List.mem_map.1 hx.1
    have hid := List.mem_of_mem_take ((mem_offered hf hd hc hy hit _).1 hx.2)
    rw [h2 y hy] at hid
    exact hid
  cases ha : it.affected with
  | true =>
    obtain ⟨j, hj⟩ := List.mem_iff_getElem?.1 (near_mem hit ha)
    refine Nat.le_trans (Verif.Query.nodup_subset_length (b := sel nodeId table ch (0 + j) it.id) hn ?_) ?_
    · intro e he
      rw [← (get_pairs hf hd e (nearIds content) 0 (nearIds_nodup hc.1)).2 j it.id hj]
      rcases List.mem_append.1 (hmem e he) with h | h
      · exact h
      · split at h
        · exact absurd h (near_not_far hc hit ha)
        · cases h
    · rw [sel, select_length (hf.1 _)]; omega
  | false =>
    refine Nat.le_trans (Verif.Query.nodup_subset_length (b := ch.peers numPeers (online table)) hn ?_) ?_
    · intro e he
      rcases List.mem_append.1 (hmem e he) with h | h
      · exact absurd ((get_pairs hf hd e (nearIds content) 0 (nearIds_nodup hc.1)).1.subset h)
          (far_not_near hc hit ha)
      · split at h
        · assumption
        · cases h
    · rw [(hf.2 _ _).1]; simp only [numPeers]; omega

/-- In a batch of one kind the items offered to a peer are in the order of the batch, whatever its
size. -/
theorem C19_order (hf : Fair ch) (hd : DistinctPeers nodeId table) (hc : DistinctItems content)
    (hr : gossipRecipients nodeId table ch content = some r) (b : Bool)
    (hb : ∀ it ∈ content, it.affected = b) :
    ∀ x ∈ r, x.2.Sublist (content.map fun it => (it.key, it.value)) := by
  rw [gossip_eq, Option.some.injEq] at hr
  subst hr
  obtain ⟨h1, h2, h3, h4⟩ := peerIds_spec hf hd hc.1
  intro x hx
  obtain ⟨y, hy, rfl⟩ := List.mem_map.1 hx
  have hsub : y.2.Sublist (content.map (·.id)) := by
    rw [h2 y hy]
    cases b with
    | true =>
      have hfar : farIds content = [] := by
        unfold farIds
        rw [List.filter_eq_nil_iff.2, List.map_nil]
        intro it hit; simp [hb it hit]
      rw [hfar]
      simp only [ite_self, List.append_nil]
      exact (get_pairs hf hd y.1 (nearIds content) 0 (nearIds_nodup hc.1)).1.trans
        (List.filter_sublist.map _)
    | false =>
      have hnear : nearIds content = [] := by
        unfold nearIds
        rw [List.filter_eq_nil_iff.2, List.map_nil]
        intro it hit; simp [hb it hit]
      rw [hnear, pairs, get_nil, List.nil_append]
      split
      · exact List.filter_sublist.map _
      · exact List.nil_sublist _
  have h := ((List.take_sublist maxKeysPerOffer y.2).trans hsub).map (rawOf content)
  have he : (content.map (·.id)).map (rawOf content) = content.map fun it => (it.key, it.value) := by
    rw [List.map_map]
    apply List.map_congr_left
    intro it hit
    exact rawOf_item hc.1 hit
  rw [he] at h
  exact h

/-- A batch that is not affected by the radius and does not fit one offer: every selected peer is
offered exactly the first 64 items. -/
theorem C19_random_cut (hf : Fair ch) (hd : DistinctPeers nodeId table) (hc : DistinctItems content)
    (hr : gossipRecipients nodeId table ch content = some r)
    (hb : ∀ it ∈ content, it.affected = false) :
    ∀ x ∈ r, x.2 = (content.take 64).map fun it => (it.key, it.value) := by
  rw [gossip_eq, Option.some.injEq] at hr
  subst hr
  obtain ⟨h1, h2, h3, h4⟩ := peerIds_spec hf hd hc.1
  intro x hx
  obtain ⟨y, hy, rfl⟩ := List.mem_map.1 hx
  have hnear : nearIds content = [] := by
    unfold nearIds
    rw [List.filter_eq_nil_iff.2, List.map_nil]
    intro it hit; simp [hb it hit]
  have hfar : farIds content = content.map (·.id) := by
    unfold farIds
    rw [List.filter_eq_self.2]
    intro it hit; simp [hb it hit]
  have hy2 := h2 y hy
  rw [hnear, hfar, pairs, get_nil, List.nil_append] at hy2
  split at hy2
  · rw [hy2, ← List.map_take, List.map_map]
    apply List.map_congr_left
    intro it hit
    exact rawOf_item hc.1 (List.mem_of_mem_take hit)
  · exact absurd hy2 (h3 y hy)

/-- Publishing a batch: the offers made are offers of selected peers with the items selected for
them; without slot accounting all are made, with `n` free slots the first `n`. -/
theorem C19_publish {slots : Option Nat} {offers : List (Offer E)} {count : Nat}
    (hp : propagate nodeId table ch content slots = some (offers, count)) :
    ∃ r, gossipRecipients nodeId table ch content = some r ∧
      offers = (match slots with | none => r | some n => r.take n).map
        (fun x : E × List (Bytes × Bytes) => (⟨x.1, x.2⟩ : Offer E)) ∧
      (slots = none → count = offers.length) ∧ offers.length ≤ count := by
  unfold propagate at hp
  cases hr : gossipRecipients nodeId table ch content with
  | none => rw [hr] at hp; cases hp
  | some r =>
    rw [hr, Option.map_some, Option.some.injEq] at hp
    have h0 : ∀ l : List (E × List (Bytes × Bytes)), sendOffers none l = l.map fun x => ⟨x.1, x.2⟩ := by
      intro l
      induction l with
      | nil => rfl
      | cons x l ih => obtain ⟨e, it⟩ := x; rw [sendOffers, ih]; rfl
    have h1 : ∀ (l : List (E × List (Bytes × Bytes))) (n : Nat),
        sendOffers (some n) l = (l.take n).map fun x => ⟨x.1, x.2⟩ := by
      intro l
      induction l with
      | nil => intro n; simp [sendOffers]
      | cons x l ih =>
        intro n
        obtain ⟨e, it⟩ := x
        cases n with
        | zero => rw [sendOffers, ih]; simp
        | succ n => rw [sendOffers, ih]; rfl
    obtain ⟨rfl, rfl⟩ := Prod.mk.inj hp
    refine ⟨r, rfl, ?_, ?_, ?_⟩
    · cases slots with
      | none => exact h0 r
      | some n => exact h1 r n
    · rintro rfl; rw [h0, List.length_map]
    · cases slots with
      | none => rw [h0, List.length_map]; exact Nat.le_refl _
      | some n => rw [h1, List.length_map, List.length_take]; omega

/-! ## Concrete cases -/

namespace GossipExample

/-- Records are their node ids; choices take the first elements. -/
def nid : Nat → Id := fun n => BitVec.ofNat 256 n
def first : Choices Nat := ⟨fun _ n l => l.take n, fun n l => l.take n⟩
def entry (n r : Nat) (c : Bool := true) : Entry Nat := ⟨n, c, r⟩
def item (n : Nat) (a : Bool) : Item := ⟨nid n, a, [UInt8.ofNat n], [0, UInt8.ofNat n]⟩

theorem first_fair : Fair first :=
  ⟨fun _ n l => ⟨by simp [first], _, List.Perm.refl _, List.take_sublist n l⟩,
   fun n l => ⟨by simp [first], _, List.Perm.refl _, List.take_sublist n l⟩⟩

/-- Ten connected peers with radius 100 (one of them far away), one disconnected. -/
def net : List (Entry Nat) :=
  [entry 9 100, entry 8 100, entry 7 100, entry 6 100, entry 5 100 false, entry 4 100, entry 3 100,
   entry 2 100, entry 1 100, entry 10 100, entry 1000 100]

def batch : List Item := [item 0 true, item 1001 true]

theorem net_distinct : DistinctPeers nid net := by unfold DistinctPeers; decide +kernel
theorem batch_distinct : DistinctItems batch := by unfold DistinctItems; decide +kernel

/-- Item 0 has nine covering peers: the four closest and four of the rest get it; item 1001 goes to
the only peer that covers it. -/
example : gossipRecipients nid net first batch =
    some [(1, [([0], [0, 0])]), (2, [([0], [0, 0])]), (3, [([0], [0, 0])]), (4, [([0], [0, 0])]),
      (6, [([0], [0, 0])]), (7, [([0], [0, 0])]), (8, [([0], [0, 0])]), (9, [([0], [0, 0])]),
      (1000, [([233], [0, 233])])] := by decide +kernel

example : (covering nid net (nid 0)).length = 9 := by decide +kernel

/-- The hypotheses of the theorems are met. -/
example : ∃ r, gossipRecipients nid net first batch = some r ∧
    (receivers r (item 0 true)).length = 8 ∧ 4 ∈ receivers r (item 0 true) := by
  refine ⟨_, gossip_eq _ _ _ _, ?_⟩
  have h := C19_neighborhood first_fair net_distinct batch_distinct (gossip_eq _ _ _ _)
    (by decide) (it := item 0 true) (by decide +kernel) rfl
  exact ⟨h.1.trans (by decide +kernel), h.2.2.2 4 (by decide +kernel) (by decide +kernel)⟩

/-- Items not affected by the radius go to eight connected peers. -/
example : (gossipRecipients nid net first [item 0 false, item 5 false]).map (·.map (·.1)) =
    some [9, 8, 7, 6, 4, 3, 2, 1] := by decide +kernel

end GossipExample

open GossipExample in
/-- The number reported after publishing is the number of selected peers, not of offers made: with no
free transfer slot nothing is offered, and the report says that one peer was reached. -/
theorem C19_publish_count_violated :
    ∃ (table : List (Entry Nat)) (content : List Item),
      DistinctPeers nid table ∧ DistinctItems content ∧
      propagate nid table first content (some 0) = some ([], 1) :=
  ⟨[entry 1 100], [item 0 true], by unfold DistinctPeers; decide +kernel, by unfold DistinctItems; decide +kernel, by decide +kernel⟩

open GossipExample in
/-- An item given twice in a batch: with five covering peers only four are offered it, and each of
them is offered it twice. -/
theorem C19_repeated_item_violated :
    ∃ (table : List (Entry Nat)) (content : List Item) (r : List (Nat × List (Bytes × Bytes))),
      DistinctPeers nid table ∧ content = [item 0 true, item 0 true] ∧
      gossipRecipients nid table first content = some r ∧
      (covering nid table (nid 0)).length = 5 ∧ (r.map (·.1)) = [1, 2, 3, 4] ∧
      ∀ x ∈ r, x.2 = [([0], [0, 0]), ([0], [0, 0])] :=
  ⟨[entry 1 100, entry 2 100, entry 3 100, entry 4 100, entry 5 100], _,
    [(1, [([0], [0, 0]), ([0], [0, 0])]), (2, [([0], [0, 0]), ([0], [0, 0])]),
     (3, [([0], [0, 0]), ([0], [0, 0])]), (4, [([0], [0, 0]), ([0], [0, 0])])],
    by unfold DistinctPeers; decide +kernel, rfl, by decide +kernel, by decide +kernel, by decide +kernel,
    by decide +kernel⟩

end Verif.Props
