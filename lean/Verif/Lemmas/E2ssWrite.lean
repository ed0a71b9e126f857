import Verif.Lemmas.E2ss

namespace Verif.E2ss
open Verif.E2store hiding Header
open Verif.Archive Verif.EvmDb Verif.Trie Verif.Props.Snapshot

attribute [local irreducible] maxItems

theorem maxItems_eq : maxItems = 10000000 := by unfold maxItems; rfl

/-- Parts are full except for the last. -/
def PartsOk (ps : List (List StorageItem)) : Prop :=
  ∀ i p, ps[i]? = some p → if i + 1 < ps.length then p.length = 10000000 else p.length ≤ 10000000

theorem partsOk_cons (p : List StorageItem) (ps : List (List StorageItem)) :
    PartsOk (p :: ps) ↔ (if ps = [] then p.length ≤ 10000000 else p.length = 10000000) ∧ PartsOk ps := by
  constructor
  · intro h
    constructor
    · have h0 := h 0 p rfl
      cases ps with
      | nil => simpa using h0
      | cons q qs => simpa using h0
    · intro i q hq
      have := h (i + 1) q (by simpa using hq)
      simpa using this
  · rintro ⟨h0, h⟩ i q hq
    cases i with
    | zero =>
      simp only [List.getElem?_cons_zero, Option.some.injEq] at hq
      subst hq
      cases ps with
      | nil => simpa using h0
      | cons q qs => simpa using h0
    | succ i =>
      have := h i q (by simpa using hq)
      simpa using this

theorem wellFormed_iff (g : Group) :
    g.WellFormed ↔ g.account.storageCount.toNat = g.parts.length ∧ PartsOk g.parts := Iff.rfl

/-! ## Writing -/

theorem append_account_iff (c : Codecs) (w w' : Writer) (a : AccountEntry) :
    w.append c (.account a) = .ok w' ↔ w.pending = 0 ∧ (itemRecord c (.account a)).2.length + 8 < 2 ^ 32 ∧
      w' = ⟨w.written ++ recordBytes (itemRecord c (.account a)), a.storageCount⟩ := by
  simp only [Writer.append]
  by_cases h : w.pending = 0
  · rw [if_pos h]
    simp only [h, true_and]
    constructor
    · intro hx
      cases h1 : appendEntry w.written (toEntry compressedAccount c.account a) with
      | err => simp [h1, Res.map, Res.bind] at hx
      | panic => simp [h1, Res.map, Res.bind] at hx
      | ok b =>
        simp only [h1, Res.map, Res.bind, Res.ok.injEq] at hx
        obtain ⟨h2, rfl⟩ := (appendEntry_iff w.written b (itemRecord c (.account a))).mp h1
        exact ⟨h2, hx.symm⟩
    · rintro ⟨h1, rfl⟩
      have := (appendEntry_iff w.written _ (itemRecord c (.account a))).mpr ⟨h1, rfl⟩
      have h2 : toEntry compressedAccount c.account a =
          Entry.new (itemRecord c (.account a)).1 (itemRecord c (.account a)).2 := rfl
      rw [h2, this]
      rfl
  · simp [h]

theorem append_storage_iff (c : Codecs) (w w' : Writer) (l : List StorageItem) :
    w.append c (.storage l) = .ok w' ↔ chunkFits w.pending l.length ∧
      (itemRecord c (.storage l)).2.length + 8 < 2 ^ 32 ∧
      w' = ⟨w.written ++ recordBytes (itemRecord c (.storage l)), w.pending - 1⟩ := by
  simp only [Writer.append]
  by_cases h : chunkFits w.pending l.length = true
  · rw [if_pos h]
    simp only [h, true_and]
    constructor
    · intro hx
      cases h1 : appendEntry w.written (toEntry compressedStorage c.storage l) with
      | err => simp [h1, Res.map, Res.bind] at hx
      | panic => simp [h1, Res.map, Res.bind] at hx
      | ok b =>
        simp only [h1, Res.map, Res.bind, Res.ok.injEq] at hx
        obtain ⟨h2, rfl⟩ := (appendEntry_iff w.written b (itemRecord c (.storage l))).mp h1
        exact ⟨h2, hx.symm⟩
    · rintro ⟨h1, rfl⟩
      have := (appendEntry_iff w.written _ (itemRecord c (.storage l))).mpr ⟨h1, rfl⟩
      have h2 : toEntry compressedStorage c.storage l =
          Entry.new (itemRecord c (.storage l)).1 (itemRecord c (.storage l)).2 := rfl
      rw [h2, this]
      rfl
  · simp [h]

theorem chunkFits_iff (p : UInt32) (n k : Nat) (hp : p.toNat = k + 1) :
    chunkFits p n = true ↔ if k = 0 then n ≤ 10000000 else n = 10000000 := by
  have h0 : p ≠ 0 := by rintro rfl; cases hp
  simp only [chunkFits, if_neg h0, maxItems_eq]
  by_cases h1 : p = 1
  · subst h1
    have : k = 0 := by have : (1 : UInt32).toNat = 1 := rfl; omega
    simp [this]
  · have : k ≠ 0 := fun e => h1 (UInt32.toNat_inj.mp (by rw [hp, e]; rfl))
    simp [h1, this]

theorem chunkFits_zero (n : Nat) : chunkFits 0 n = false := rfl

theorem appendAll_sound (c : Codecs) : ∀ (is : List Item) (w w' : Writer), w.appendAll c is = .ok w' → w'.pending = 0 →
    ∃ ps gs, ps.length = w.pending.toNat ∧ PartsOk ps ∧ (∀ g ∈ gs, g.WellFormed) ∧ is = ps.map .storage ++ items gs ∧
      Short (is.map (itemRecord c)) ∧ w'.written = w.written ++ fileBytes (is.map (itemRecord c))
  | [], w, w', h, hp => by
    simp only [Writer.appendAll, Res.ok.injEq] at h
    subst h
    refine ⟨[], [], by rw [hp]; rfl, fun i p hp => by simp at hp, by simp, rfl, fun r hr => by simp at hr, by simp [fileBytes]⟩
  | i :: is, w, w', h, hp => by
    simp only [Writer.appendAll, Res.bind] at h
    cases h1 : w.append c i with
    | err => simp [h1] at h
    | panic => simp [h1] at h
    | ok w1 =>
      simp only [h1] at h
      obtain ⟨ps, gs, g1, g2, g3, g4, g5, g6⟩ := appendAll_sound c is w1 w' h hp
      have hshort : (itemRecord c i).2.length + 8 < 2 ^ 32 → Short ((i :: is).map (itemRecord c)) := by
        intro h0 r hr
        rcases List.mem_cons.mp hr with rfl | hr
        · exact h0
        · exact g5 r hr
      cases i with
      | account a =>
        obtain ⟨e1, e2, rfl⟩ := (append_account_iff c w w1 a).mp h1
        refine ⟨[], ⟨a, ps⟩ :: gs, by rw [e1]; rfl, fun i p hp => by simp at hp, ?_, ?_, hshort e2, ?_⟩
        · intro g hg
          rcases List.mem_cons.mp hg with rfl | hg
          · exact ⟨g1.symm, g2⟩
          · exact g3 g hg
        · rw [g4]; simp [items]
        · rw [g6]; simp [fileBytes]
      | storage l =>
        obtain ⟨e1, e2, rfl⟩ := (append_storage_iff c w w1 l).mp h1
        have hne : w.pending ≠ 0 := by
          intro e
          rw [e, chunkFits_zero] at e1
          cases e1
        have hpp := u32_pred hne
        refine ⟨l :: ps, gs, by rw [List.length_cons, g1]; exact hpp, ?_, g3, by rw [g4]; simp, hshort e2, ?_⟩
        · rw [partsOk_cons]
          refine ⟨?_, g2⟩
          have := (chunkFits_iff w.pending l.length ps.length (by rw [g1]; exact hpp.symm)).mp e1
          cases ps <;> simpa using this
        · rw [g6]; simp [fileBytes]

theorem appendAll_append (c : Codecs) : ∀ (is js : List Item) (w : Writer),
    w.appendAll c (is ++ js) = (w.appendAll c is).bind fun w => w.appendAll c js
  | [], _, _ => rfl
  | i :: is, js, w => by
    simp only [List.cons_append, Writer.appendAll]
    cases w.append c i with
    | ok w => simp only [Res.bind]; exact appendAll_append c is js w
    | err => rfl
    | panic => rfl

theorem appendAll_parts (c : Codecs) : ∀ (ps : List (List StorageItem)) (w : Writer), ps.length = w.pending.toNat →
    PartsOk ps → Short ((ps.map Item.storage).map (itemRecord c)) →
    w.appendAll c (ps.map .storage) = .ok ⟨w.written ++ fileBytes ((ps.map Item.storage).map (itemRecord c)), 0⟩
  | [], w, h, _, _ => by
    have : w.pending = 0 := UInt32.toNat_inj.mp h.symm
    obtain ⟨b, p⟩ := w
    simp only at this
    subst this
    simp [Writer.appendAll, fileBytes]
  | p :: ps, w, h, hp, hs => by
    have hne : w.pending ≠ 0 := by intro e; rw [e] at h; simp at h
    have hpp := u32_pred hne
    simp only [List.length_cons] at h
    rw [partsOk_cons] at hp
    have h1 : w.append c (.storage p) = .ok ⟨w.written ++ recordBytes (itemRecord c (.storage p)), w.pending - 1⟩ := by
      refine (append_storage_iff c w _ p).mpr ⟨(chunkFits_iff w.pending p.length ps.length (by omega)).mpr ?_, ?_, rfl⟩
      · have := hp.1
        cases ps <;> simpa using this
      · exact hs _ (by simp)
    simp only [List.map_cons, Writer.appendAll, h1, Res.bind]
    rw [appendAll_parts c ps _ (by simp only; omega) hp.2 (fun r hr => hs r (by simp at hr ⊢; exact Or.inr hr))]
    simp [fileBytes]

theorem appendAll_items (c : Codecs) : ∀ (gs : List Group) (w : Writer), w.pending = 0 → (∀ g ∈ gs, g.WellFormed) →
    Short ((items gs).map (itemRecord c)) →
    w.appendAll c (items gs) = .ok ⟨w.written ++ fileBytes ((items gs).map (itemRecord c)), 0⟩
  | [], ⟨b, p⟩, h, _, _ => by
    simp only at h
    subst h
    simp [items, Writer.appendAll, fileBytes]
  | ⟨a, ps⟩ :: gs, w, h, hw, hs => by
    have e : items (⟨a, ps⟩ :: gs) = .account a :: (ps.map .storage ++ items gs) := by simp [items]
    rw [e] at hs ⊢
    have hwf := hw ⟨a, ps⟩ List.mem_cons_self
    have h1 := (append_account_iff c w _ a).mpr ⟨h, hs _ (by simp), rfl⟩
    simp only [Writer.appendAll, h1, Res.bind]
    rw [appendAll_append, appendAll_parts c ps _ hwf.1.symm hwf.2
      (fun r hr => hs r (by simp only [List.map_cons, List.map_append, List.mem_cons, List.mem_append]; exact Or.inr (Or.inl hr)))]
    simp only [Res.bind]
    rw [appendAll_items c gs _ rfl (fun g hg => hw g (List.mem_cons_of_mem _ hg))
      (fun r hr => hs r (by simp only [List.map_cons, List.map_append, List.mem_cons, List.mem_append]; exact Or.inr (Or.inr hr)))]
    simp [fileBytes]

theorem create_iff (c : Codecs) (h : Header) (w : Writer) :
    Writer.create c h = .ok w ↔ (c.header.enc h).length + 8 < 2 ^ 32 ∧ w = ⟨fileBytes (records c h []), 0⟩ := by
  have h0 : appendEntry [] versionEntry = .ok (recordBytes (0x6532, [])) :=
    (appendEntry_iff [] _ (0x6532, [])).mpr ⟨by decide, rfl⟩
  simp only [Writer.create, h0, Res.bind]
  constructor
  · intro hx
    cases h1 : appendEntry (recordBytes (0x6532, [])) (toEntry compressedHeader c.header h) with
    | err => simp [h1, Res.map, Res.bind] at hx
    | panic => simp [h1, Res.map, Res.bind] at hx
    | ok b =>
      simp only [h1, Res.map, Res.bind, Res.ok.injEq] at hx
      obtain ⟨h2, rfl⟩ := (appendEntry_iff _ b (0x0300, c.header.enc h)).mp h1
      exact ⟨h2, by rw [← hx]; simp [fileBytes, records]⟩
  · rintro ⟨h1, rfl⟩
    have := (appendEntry_iff (recordBytes (0x6532, [])) _ (0x0300, c.header.enc h)).mpr ⟨h1, rfl⟩
    have h2 : toEntry compressedHeader c.header h = Entry.new 0x0300 (c.header.enc h) := rfl
    simp only [h2, this, Res.map, Res.bind]
    simp [fileBytes, records]

theorem file_records (c : Codecs) (h : Header) (is : List Item) :
    fileBytes (records c h is) = fileBytes (records c h []) ++ fileBytes (is.map (itemRecord c)) := by
  simp [fileBytes, records]

/-! ## Chunks -/

theorem chunksAux_spec (l : List StorageItem) : ∀ (f : Nat), l.length ≤ f →
    (chunksAux maxItems f l).flatten = l ∧ PartsOk (chunksAux maxItems f l) ∧
      (chunksAux maxItems f l).length = (l.length + maxItems - 1) / maxItems := by
  intro f
  induction f generalizing l with
  | zero =>
    intro h
    have : l = [] := List.length_eq_zero_iff.mp (by omega)
    subst this
    refine ⟨rfl, fun i p hp => by simp [chunksAux] at hp, ?_⟩
    simp only [chunksAux, maxItems_eq, List.length_nil]
  | succ f ih =>
    intro h
    simp only [chunksAux]
    by_cases he : l = []
    · subst he
      refine ⟨rfl, fun i p hp => by simp at hp, ?_⟩
      simp only [List.isEmpty_nil, if_true, List.length_nil, maxItems_eq]
    · have he' : l.isEmpty = false := by simpa using he
      have hpos : 0 < l.length := List.length_pos_iff.mpr he
      rw [he']
      simp only [Bool.false_eq_true, if_false]
      obtain ⟨h1, h2, h3⟩ := ih (l.drop maxItems) (by rw [List.length_drop, maxItems_eq]; omega)
      refine ⟨?_, ?_, ?_⟩
      · rw [List.flatten_cons, h1, List.take_append_drop]
      · rw [partsOk_cons]
        refine ⟨?_, h2⟩
        rw [List.length_take]
        split
        · rw [maxItems_eq]; omega
        · next hne =>
          have : (chunksAux maxItems f (l.drop maxItems)).length ≠ 0 := fun e => hne (List.length_eq_zero_iff.mp e)
          rw [h3, List.length_drop, maxItems_eq] at this
          rw [maxItems_eq]
          omega
      · rw [List.length_cons, h3, List.length_drop, maxItems_eq]
        omega

theorem chunks_spec (l : List StorageItem) :
    (chunks maxItems l).flatten = l ∧ PartsOk (chunks maxItems l) ∧
      (chunks maxItems l).length = (l.length + maxItems - 1) / maxItems :=
  chunksAux_spec l l.length (Nat.le_refl _)

end Verif.E2ss
