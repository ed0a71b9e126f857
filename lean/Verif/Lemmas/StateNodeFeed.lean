import Verif.Lemmas.StateNode

/-! # Lemmas about a state node that gets many items -/

namespace Verif.StateNode
open Verif.StateContent Verif.Props Verif.Props.StateNodes Verif.Ssz

theorem length_le_encodeVarList {p : List Bytes} {m : Bytes} (h : m ∈ p) : m.length + 4 ≤ (encodeVarList p).length := by
  rw [encodeVarList_length]
  have h1 : m.length ≤ (p.map List.length).sum := by
    induction p with
    | nil => cases h
    | cons x p ih =>
      simp only [List.map_cons, List.sum_cons]
      rcases List.mem_cons.mp h with rfl | h
      · omega
      · have := ih h; omega
  have h2 : 1 ≤ p.length := List.length_pos_of_mem h
  omega

/-- The form without proof is not longer than the one with proof. -/
theorem retrieved_length {K : Bytes → Id} {key : ContentKey.State} {bs m : Bytes} (h : Carries K key bs m) :
    (retrieved key m).length ≤ bs.length := by
  obtain ⟨v, hb, rfl, hp, hs, _⟩ := h
  cases hb with
  | accountNode path h n hn => cases hp
  | storageNode a path h n hn => cases hp
  | bytecode a h c hc => cases hp
  | account path h p b hf =>
    have := length_le_encodeVarList (List.mem_of_getLast? hs)
    simp [retrieved, Value.encode, encodeContainer, fixedPart, varPart, headLen, Field.headLen]
    omega
  | storage a path h p q b hf _ =>
    have := length_le_encodeVarList (List.mem_of_getLast? hs)
    simp [retrieved, Value.encode, encodeContainer, fixedPart, varPart, headLen, Field.headLen]
    omega
  | bytecodeWithProof a h c p b hc _ =>
    cases hs
    simp [retrieved, Value.encode, encodeContainer, fixedPart, varPart, headLen, Field.headLen]
    omega

theorem insert_room (env : Store.Env) (cfg : Store.Config) (sps : List Store.Speed) (s : Store.Store) (key value : Bytes)
    (hr : xorDistance cfg.node (env.idOf key) ≤ s.radius)
    (hc : s.usage cfg + Store.contentSize key value + cfg.extra ≤ cfg.capacity) :
    Store.insert env cfg sps s key value = .ok (Store.inserted env cfg s key value, []) ∧
      (Store.inserted env cfg s key value).usage cfg = s.usage cfg + Store.contentSize key value + cfg.extra := by
  have hu : (Store.inserted env cfg s key value).usage cfg = s.usage cfg + Store.contentSize key value + cfg.extra := by
    simp only [Store.Store.usage, Store.inserted]
    rw [Nat.add_mul]
    omega
  refine ⟨?_, hu⟩
  unfold Store.insert
  rw [if_neg (by unfold Store.distance; omega)]
  have : (Store.inserted env cfg s key value).shouldPrune cfg = false := by
    unfold Store.Store.shouldPrune
    rw [hu]
    exact decide_eq_false (by omega)
  simp only [this]
  rfl

theorem get_inserted (n : Node) (cfg : Store.Config) (s : Store.Store) (key key' : ContentKey.State) (value : Bytes) :
    StateStore.get n.db (Store.inserted n.db cfg s key.toBytes value) key' =
      match StateStore.get n.db s key' with
      | some v => some v
      | none => if n.db.idOf key'.toBytes = n.db.idOf key.toBytes then some value else none := by
  unfold StateStore.get Store.lookupValue
  simp only [Store.inserted]
  rw [Store.lookup_insertRow]
  cases Store.lookup s.rows (n.db.idOf key'.toBytes) with
  | some kv => rfl
  | none =>
    simp only [Store.newRow, Option.map_none]
    split <;> simp [*]

/-- One item that is offered and stored. -/
theorem fed_one (n : Node) (s : State) (key : ContentKey.State) (bs : Bytes) (sps : List Store.Speed)
    (hv : validateContent n.trie key bs = some .canonicallyValid) {m : Bytes} (hm : Carries n.trie.K key bs m)
    (hr : xorDistance s.store.1.node (n.db.idOf key.toBytes) ≤ s.store.2.radius)
    (hc : s.store.2.usage s.store.1 + (32 + key.toBytes.length + bs.length + s.store.1.extra) ≤ s.store.1.capacity) :
    ∃ s', run n s [.offered key bs, .keep s.held.length sps] = .ok s' ∧
      s'.held = s.held ++ [(key, bs)] ∧ s'.store.1 = s.store.1 ∧ s'.store.2.radius = s.store.2.radius ∧
      s'.store.2.usage s.store.1 ≤ s.store.2.usage s.store.1 + (32 + key.toBytes.length + bs.length + s.store.1.extra) ∧
      ∀ key', get n s' key' =
        match get n s key' with
        | some v => some v
        | none => if n.db.idOf key'.toBytes = n.db.idOf key.toBytes then some (retrieved key m) else none := by
  have hl := retrieved_length hm
  have hcs : Store.contentSize key.toBytes (retrieved key m) ≤ 32 + key.toBytes.length + bs.length := by
    unfold Store.contentSize; omega
  obtain ⟨h1, h2⟩ := insert_room n.db s.store.1 sps s.store.2 key.toBytes (retrieved key m) hr (by omega)
  have h3 : StateStore.step n.db n.trie.K s.store (.put sps key bs) =
      .ok (s.store.1, Store.inserted n.db s.store.1 s.store.2 key.toBytes (retrieved key m)) := by
    simp only [StateStore.step, StateStore.put, (convert_iff n.trie.K key bs _).mpr ⟨m, hm, rfl⟩, h1]
  refine ⟨⟨(s.store.1, Store.inserted n.db s.store.1 s.store.2 key.toBytes (retrieved key m)), s.held ++ [(key, bs)], s.found⟩,
    ?_, rfl, rfl, rfl, ?_, fun key' => get_inserted n _ _ _ _ _⟩
  · simp only [run, step, onOffered, hv]
    rw [List.getElem?_append_right (Nat.le_refl _)]
    simp only [Nat.sub_self, List.getElem?_cons_zero, h3, Except.map]
  · simp only [h2]; omega

theorem feed_spec (n : Node) (items : List (ContentKey.State × Bytes × List Store.Speed)) (s : State)
    (hv : ∀ x ∈ items, validateContent n.trie x.1 x.2.1 = some .canonicallyValid)
    (hm : ∀ x ∈ items, ∃ m, Carries n.trie.K x.1 x.2.1 m) (hr : Room n s items) :
    ∃ s', run n s (feed s.held.length items) = .ok s' ∧ s'.store.1 = s.store.1 ∧
      s'.store.2.radius = s.store.2.radius ∧
      s'.store.2.usage s.store.1 ≤ s.store.2.usage s.store.1 + weight s.store.1 items ∧
      (∀ x ∈ items, ∃ m, Carries n.trie.K x.1 x.2.1 m ∧ get n s' x.1 = some (retrieved x.1 m)) ∧
      ∀ key v, get n s key = some v → get n s' key = some v := by
  induction items generalizing s with
  | nil => exact ⟨s, rfl, rfl, rfl, by simp [weight], by simp, fun _ _ h => h⟩
  | cons x items ih =>
    obtain ⟨key, bs, sps⟩ := x
    obtain ⟨m, hm1⟩ := hm (key, bs, sps) (List.mem_cons_self ..)
    have hcap := hr.capacity
    simp only [weight, List.map_cons, List.sum_cons] at hcap
    obtain ⟨s1, h1, h2, h3, h4, h5, h6⟩ := fed_one n s key bs sps (hv (key, bs, sps) (List.mem_cons_self ..)) hm1
      (hr.radius (key, bs, sps) (List.mem_cons_self ..)) (by omega)
    have hids : n.db.idOf key.toBytes ∉ items.map (fun x => n.db.idOf x.1.toBytes) ∧
        (items.map fun x => n.db.idOf x.1.toBytes).Nodup := List.nodup_cons.mp hr.ids
    have hroom : Room n s1 items := by
      refine ⟨?_, fun x hx => ?_, fun x hx => ?_, hids.2⟩
      · rw [h3]; unfold weight; omega
      · rw [h3, h4]; exact hr.radius x (List.mem_cons_of_mem _ hx)
      · rw [h6, hr.fresh x (List.mem_cons_of_mem _ hx)]
        simp only
        rw [if_neg]
        intro he
        exact hids.1 (he ▸ List.mem_map_of_mem (f := fun x : ContentKey.State × Bytes × List Store.Speed => n.db.idOf x.1.toBytes) hx)
    obtain ⟨s2, g1, g2, g3, g4, g5, g6⟩ := ih s1 (fun x hx => hv x (List.mem_cons_of_mem _ hx))
      (fun x hx => hm x (List.mem_cons_of_mem _ hx)) hroom
    refine ⟨s2, ?_, by rw [g2, h3], by rw [g3, h4], ?_, fun x hx => ?_, fun k v hg => g6 k v (by rw [h6, hg])⟩
    · have : feed s.held.length ((key, bs, sps) :: items) =
          [.offered key bs, .keep s.held.length sps] ++ feed s1.held.length items := by
        rw [h2, List.length_append]; rfl
      rw [this]
      exact (run_append n _ _ _ _).mpr ⟨s1, h1, g1⟩
    · rw [h3] at g4
      simp only [weight, List.map_cons, List.sum_cons] at g4 ⊢
      omega
    · rcases List.mem_cons.mp hx with rfl | hx
      · refine ⟨m, hm1, g6 _ _ ?_⟩
        rw [h6, hr.fresh (key, bs, sps) (List.mem_cons_self ..)]
        simp
      · exact g5 x hx

end Verif.StateNode
