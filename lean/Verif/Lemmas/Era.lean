import Verif.Props.EraSpec
import Verif.Props.Archive

/-! # Lemmas for era files -/

namespace Verif.Era
open Verif.E2store Verif.Archive
open Verif.Props (EraSpec.ForkAt EraSpec.PointsToStart EraSpec.Reads)
open Verif.Props.EraSpec (ForkAt PointsToStart Reads)

theorem beaconFork_iff (slot : UInt64) (f : Fork) : beaconFork slot = .ok f ↔ ForkAt slot.toNat f := by
  have e1 : slot < 4636672 ↔ slot.toNat < 4636672 := UInt64.lt_iff_toNat_lt
  have e2 : slot < 6209536 ↔ slot.toNat < 6209536 := UInt64.lt_iff_toNat_lt
  have e3 : slot < 8626176 ↔ slot.toNat < 8626176 := UInt64.lt_iff_toNat_lt
  have e4 : slot < 11649024 ↔ slot.toNat < 11649024 := UInt64.lt_iff_toNat_lt
  unfold beaconFork
  simp only [e1, e2, e3, e4]
  constructor
  · intro h
    by_cases h1 : slot.toNat < 4636672
    · rw [if_pos h1] at h; cases h
    · rw [if_neg h1] at h
      by_cases h2 : slot.toNat < 6209536
      · rw [if_pos h2] at h; cases h
        exact .bellatrix (by omega) (by omega)
      · rw [if_neg h2] at h
        by_cases h3 : slot.toNat < 8626176
        · rw [if_pos h3] at h; cases h
          exact .capella (by omega) (by omega)
        · rw [if_neg h3] at h
          by_cases h4 : slot.toNat < 11649024
          · rw [if_pos h4] at h; cases h
            exact .deneb (by omega) (by omega)
          · rw [if_neg h4] at h; cases h
            exact .electra (by omega)
  · intro h
    cases h with
    | bellatrix a b => rw [if_neg (by omega), if_pos (by omega)]
    | capella a b => rw [if_neg (by omega), if_neg (by omega), if_pos (by omega)]
    | deneb a b => rw [if_neg (by omega), if_neg (by omega), if_neg (by omega), if_pos (by omega)]
    | electra a => rw [if_neg (by omega), if_neg (by omega), if_neg (by omega), if_neg (by omega)]

theorem fromForkEntry_iff {α : Type} (t : UInt16) (c : ForkCodec α) (r : UInt16 × Bytes) (f : Fork) (x : α) :
    fromForkEntry t c (Entry.new r.1 r.2) f = .ok x ↔ r.1 = t ∧ c.dec f r.2 = some x := by
  unfold fromForkEntry
  by_cases ht : r.1 = t
  · rw [if_neg (by simpa [Entry.new] using ht)]
    cases hd : c.dec f r.2 <;> simp [Entry.new, hd, ht]
  · rw [if_pos (by simpa [Entry.new] using ht)]
    simp [ht]

theorem indexRecord_eq (b : BlockIndex) : Props.EraSpec.indexRecord b = (0x6932, (Props.indexRecord b).2) := rfl

theorem slotIndexEntry_eq (b : BlockIndex) :
    slotIndexEntry b = Entry.new (Props.EraSpec.indexRecord b).1 (Props.EraSpec.indexRecord b).2 := by
  simp [slotIndexEntry, Props.EraSpec.indexRecord, slotIndexType]

theorem indexRecord_length (b : BlockIndex) : (Props.EraSpec.indexRecord b).2.length = 8 * (b.indices.length + 2) := by
  simp only [Props.EraSpec.indexRecord, List.length_append, toLe_length, flatMap_length8]; omega

theorem readSlotIndex_iff (n : Nat) (hn : n < 2 ^ 28) (r : UInt16 × Bytes) (b : BlockIndex) :
    readSlotIndex (8 * (n + 2)) (Entry.new r.1 r.2) = .ok b ↔ r = Props.EraSpec.indexRecord b ∧ b.indices.length = n := by
  constructor
  · intro h
    unfold readSlotIndex at h
    split at h
    · cases h
    · rename_i ht
      split at h
      · cases h
      · split at h
        · cases h
        · split at h
          · cases h
          · rename_i hl
            have ht : r.1 = slotIndexType := Decidable.not_not.mp ht
            have hl : r.2.length = 8 * (n + 2) := Decidable.not_not.mp hl
            have h : BlockIndex.ofValue r.2 = b := by cases h; rfl
            subst h
            have := Props.indexRecord_ofValue r.2 n (by omega)
            refine ⟨?_, ?_⟩
            · rw [indexRecord_eq, this]
              obtain ⟨t, v⟩ := r
              simp only at ht
              rw [ht]; rfl
            · simp only [BlockIndex.ofValue, List.length_map, List.length_range]
              omega
  · rintro ⟨rfl, hl⟩
    have hlen := indexRecord_length b
    rw [hl] at hlen
    unfold readSlotIndex
    rw [if_neg (by simp [Entry.new, Props.EraSpec.indexRecord, slotIndexType]),
      if_neg (by rw [new_length _ (by omega)]; omega), if_neg (by simp [Entry.new]), if_neg (by simp only [Entry.new]; omega)]
    congr 1
    have := ofValue_toEntry b
    rw [Props.indexRecord_toEntry] at this
    exact this

theorem slotsFrom_iff (before : Nat) (start : UInt64) (l : List UInt64) : ∀ (i : Nat) (ss : List UInt64),
    offsetSlots (0 - UInt64.ofNat before) start i l = .ok ss ↔
      (∀ s ∈ Props.EraSpec.slotsFrom before (start.toNat + i) l, s < 2 ^ 64) ∧
      ss.map (·.toNat) = Props.EraSpec.slotsFrom before (start.toNat + i) l := by
  have marker : ∀ off : UInt64, off = 0 - UInt64.ofNat before ↔ PointsToStart before off := by
    intro off
    rw [← UInt64.toNat_inj, UInt64.toNat_sub, UInt64.toNat_ofNat']
    unfold PointsToStart
    have := off.toNat_lt
    simp only [UInt64.toNat_zero]
    omega
  induction l with
  | nil => intro i ss; simp [offsetSlots, Props.EraSpec.slotsFrom, eq_comm]
  | cons off l ih =>
    intro i ss
    simp only [offsetSlots, Props.EraSpec.slotsFrom]
    by_cases hm : PointsToStart before off
    · rw [if_pos ((marker off).mpr hm), if_pos hm]
      exact ih (i + 1) ss
    · rw [if_neg (fun h => hm ((marker off).mp h)), if_neg hm]
      by_cases ho : start.toNat + i ≥ 2 ^ 64
      · rw [if_pos ho]
        constructor
        · intro h; cases h
        · rintro ⟨h, -⟩
          exact absurd (h _ List.mem_cons_self) (by omega)
      · rw [if_neg ho]
        have hv : (UInt64.ofNat (start.toNat + i)).toNat = start.toNat + i := by
          rw [UInt64.toNat_ofNat']; exact Nat.mod_eq_of_lt (by omega)
        constructor
        · intro h
          cases hr : offsetSlots (0 - UInt64.ofNat before) start (i + 1) l with
          | ok ss' =>
            rw [hr] at h
            simp only [Res.map, Res.bind] at h
            cases h
            obtain ⟨h1, h2⟩ := (ih (i + 1) ss').mp hr
            refine ⟨?_, ?_⟩
            · intro s hs
              rcases List.mem_cons.mp hs with rfl | hs
              · omega
              · exact h1 s hs
            · rw [List.map_cons, hv, h2]; rfl
          | err => rw [hr] at h; cases h
          | panic => rw [hr] at h; cases h
        · rintro ⟨h1, h2⟩
          cases ss with
          | nil => cases h2
          | cons s ss =>
            rw [List.map_cons] at h2
            obtain ⟨h3, h4⟩ := List.cons.inj h2
            have := (ih (i + 1) ss).mpr ⟨fun s hs => h1 s (List.mem_cons_of_mem _ hs), h4⟩
            rw [this]
            simp only [Res.map, Res.bind]
            rw [← h3, UInt64.ofNat_toNat]

theorem readBlocks_iff {B : Type} (c : ForkCodec B) (rest : List Entry) : ∀ (slots : List UInt64) (rs : List (UInt16 × Bytes))
    (bs : List B), slots.length = rs.length →
    (readBlocks c slots (rs.map (fun r => Entry.new r.1 r.2) ++ rest) = .ok bs ↔
      rs = (rs.map (·.2)).map (fun b => (0x0100, b)) ∧ Reads c (slots.map (·.toNat)) (rs.map (·.2)) bs) := by
  intro slots
  induction slots with
  | nil =>
    intro rs bs hl
    cases rs with
    | nil => cases bs <;> simp [readBlocks, Reads]
    | cons r rs => cases hl
  | cons s slots ih =>
    intro rs bs hl
    cases rs with
    | nil => cases hl
    | cons r rs =>
      have ih := ih rs
      simp only [List.map_cons, List.cons_append, readBlocks]
      constructor
      · intro h
        cases hf : beaconFork s with
        | ok f =>
          rw [hf] at h
          simp only [Res.bind] at h
          cases hb : fromForkEntry compressedBlock c (Entry.new r.1 r.2) f with
          | ok b =>
            rw [hb] at h
            simp only at h
            obtain ⟨ht, hd⟩ := (fromForkEntry_iff _ _ _ _ _).mp hb
            cases hr : readBlocks c slots (rs.map (fun r => Entry.new r.1 r.2) ++ rest) with
            | ok bs' =>
              rw [hr] at h
              simp only [Res.map, Res.bind] at h
              cases h
              obtain ⟨h1, h2⟩ := (ih bs' (by simpa using hl)).mp hr
              refine ⟨?_, ⟨f, (beaconFork_iff s f).mp hf, hd⟩, h2⟩
              rw [← h1]
              obtain ⟨t, v⟩ := r
              simp only at ht
              rw [ht]; rfl
            | err => rw [hr] at h; cases h
            | panic => rw [hr] at h; cases h
          | err => rw [hb] at h; cases h
          | panic => rw [hb] at h; cases h
        | err => rw [hf] at h; cases h
        | panic => rw [hf] at h; cases h
      · rintro ⟨h1, h2⟩
        cases bs with
        | nil => simp [Reads] at h2
        | cons b bs =>
          obtain ⟨⟨f, hf, hd⟩, h2⟩ := h2
          obtain ⟨h3, h4⟩ := List.cons.inj h1
          have hfork := (beaconFork_iff s f).mpr hf
          rw [hfork]
          simp only [Res.bind]
          have ht : r.1 = compressedBlock := by rw [h3]; rfl
          rw [(fromForkEntry_iff compressedBlock c r f b).mpr ⟨ht, hd⟩]
          simp only
          rw [(ih bs (by simpa using hl)).mpr ⟨h4, h2⟩]
          rfl

theorem reads_length {B : Type} {c : ForkCodec B} : ∀ {slots : List Nat} {raws : List Bytes} {bs : List B},
    Reads c slots raws bs → raws.length = slots.length ∧ bs.length = slots.length
  | [], [], [], _ => ⟨rfl, rfl⟩
  | _ :: _, _ :: _, _ :: _, h => by
    obtain ⟨h1, h2⟩ := reads_length h.2
    simp [h1, h2]
  | [], _ :: _, _, h => by simp [Reads] at h
  | [], [], _ :: _, h => by simp [Reads] at h
  | _ :: _, [], _, h => by simp [Reads] at h
  | _ :: _, _ :: _, [], h => by simp [Reads] at h

theorem bind_ok {α β : Type} {r : Res α} {f : α → Res β} {b : β} : r.bind f = .ok b ↔ ∃ a, r = .ok a ∧ f a = .ok b := by
  cases r <;> simp [Res.bind]

/-- A list of at least four elements, from both ends. -/
theorem ends {α : Type} (l : List α) (h : 4 ≤ l.length) : ∃ v mid s i j, l = v :: mid ++ [s, i, j] := by
  obtain ⟨v, rest, rfl⟩ : ∃ v rest, l = v :: rest := by
    cases l with
    | nil => simp at h
    | cons v rest => exact ⟨v, rest, rfl⟩
  simp only [List.length_cons] at h
  refine ⟨v, rest.take (rest.length - 3), ?_⟩
  have hl : (rest.drop (rest.length - 3)).length = 3 := by simp; omega
  match hd : rest.drop (rest.length - 3), hl with
  | [s, i, j], _ =>
    refine ⟨s, i, j, ?_⟩
    rw [← hd, List.cons_append, List.take_append_drop]

theorem fromEnd_three (v : Entry) (mid : List Entry) (s i j : Entry) :
    fromEnd (v :: mid ++ [s, i, j]) 3 = .ok s ∧ fromEnd (v :: mid ++ [s, i, j]) 2 = .ok i ∧
    fromEnd (v :: mid ++ [s, i, j]) 1 = .ok j := by
  have hl : (v :: mid ++ [s, i, j]).length = mid.length + 4 := by simp
  refine ⟨?_, ?_, ?_⟩ <;> unfold fromEnd <;> rw [hl] <;> rw [if_neg (by omega)]
  · rw [show mid.length + 4 - 3 = mid.length + 1 from by omega, List.getElem?_append_right (by simp)]
    simp
  · rw [show mid.length + 4 - 2 = mid.length + 2 from by omega, List.getElem?_append_right (by simp)]
    simp
  · rw [show mid.length + 4 - 1 = mid.length + 3 from by omega, List.getElem?_append_right (by simp)]
    simp

/-- Reading a file, entry by entry. -/
theorem deserialize_ok {B S : Type} (cb : ForkCodec B) (cs : ForkCodec S) (bs : Bytes) (e : Era B S) :
    deserialize cb cs bs = .ok e ↔ ∃ v mid s i j, E2store.deserialize bs = .ok (v :: mid ++ [s, i, j]) ∧
      readVersion v = .ok e.version ∧ readSlotIndex 65552 i = .ok e.blockIndex ∧ readSlotIndex 24 j = .ok e.stateIndex ∧
      ∃ slots, blockSlots bs.length e.blockIndex = .ok slots ∧ slots.length = mid.length ∧
        readBlocks cb slots (mid ++ [s, i, j]) = .ok e.blocks ∧
        ∃ f, beaconFork e.stateIndex.startingNumber = .ok f ∧ fromForkEntry compressedState cs s f = .ok e.state := by
  constructor
  · intro h
    unfold deserialize at h
    obtain ⟨es, hes, h⟩ := bind_ok.mp h
    cases es with
    | nil => cases h
    | cons first rest =>
      simp only at h
      obtain ⟨ver, h1, h⟩ := bind_ok.mp h
      obtain ⟨e2, h2, h⟩ := bind_ok.mp h
      obtain ⟨bi, h3, h⟩ := bind_ok.mp h
      obtain ⟨e1, h4, h⟩ := bind_ok.mp h
      obtain ⟨si, h5, h⟩ := bind_ok.mp h
      obtain ⟨slots, h6, h⟩ := bind_ok.mp h
      split at h
      · cases h
      · rename_i hlen
        split at h
        · cases h
        · rename_i hcount
          obtain ⟨v, mid, s, i, j, heq⟩ := ends (first :: rest) (by omega)
          obtain ⟨q3, q2, q1⟩ := fromEnd_three v mid s i j
          rw [List.cons_append] at heq
          obtain ⟨rfl, rfl⟩ := List.cons.inj heq
          rw [← List.cons_append] at h2 h4 h hes hcount
          rw [q2] at h2
          rw [q1] at h4
          cases h2
          cases h4
          rw [q3] at h
          obtain ⟨blocks, h7, h⟩ := bind_ok.mp h
          obtain ⟨f, h8, h⟩ := bind_ok.mp h
          obtain ⟨e3, h9, h⟩ := bind_ok.mp h
          cases h9
          obtain ⟨st, h10, h⟩ := bind_ok.mp h
          cases h
          refine ⟨first, mid, s, _, _, hes, h1, h3, h5, slots, h6, ?_, h7, f, h8, h10⟩
          simp at hcount
          omega
  · rintro ⟨v, mid, s, i, j, hes, h1, h3, h5, slots, h6, hc, h7, f, h8, h10⟩
    obtain ⟨q3, q2, q1⟩ := fromEnd_three v mid s i j
    unfold deserialize
    rw [hes]
    simp only [Res.bind, List.cons_append] at *
    rw [h1]
    simp only [q1, q2, q3, h3, h5, h6]
    rw [if_neg (by simp), if_neg (by simp; omega), h7]
    simp only [h8, h10]

theorem fileBytes_records_length (raws : List Bytes) (raw : Bytes) (bi si : BlockIndex) (hb : bi.indices.length = 8192)
    (hs : si.indices.length = 1) : 65592 ≤ (fileBytes (Props.EraSpec.records raws raw bi si)).length := by
  have h1 := indexRecord_length bi
  have h2 := indexRecord_length si
  unfold Props.EraSpec.records
  rw [fileBytes_append, List.length_append]
  simp only [fileBytes, List.flatMap_cons, List.flatMap_nil, List.append_nil, List.length_append, recordBytes_length]
  omega

theorem isEra_iff {B S : Type} (cb : ForkCodec B) (cs : ForkCodec S) (bs : Bytes) (e : Era B S) :
    deserialize cb cs bs = .ok e ↔ Props.EraSpec.IsEra cb cs bs e := by
  rw [deserialize_ok]
  constructor
  · rintro ⟨v, mid, s, i, j, hes, h1, h3, h5, slots, h6, hc, h7, f, h8, h10⟩
    obtain ⟨rs, hshort, rfl, hrs⟩ := Props.C38_strict bs _ hes
    obtain ⟨v', mid', s', i', j', rfl⟩ : ∃ v' mid' s' i' j', rs = v' :: mid' ++ [s', i', j'] := by
      apply ends
      have := congrArg List.length hrs
      simp at this
      omega
    have hlen := congrArg List.length hrs
    simp only [List.cons_append, List.length_cons, List.length_append, List.length_map, List.length_nil] at hlen
    simp only [List.cons_append, List.map_cons, List.map_append, List.map_nil] at hrs
    obtain ⟨rfl, hrs1⟩ := List.cons.inj hrs
    obtain ⟨rfl, hrs2⟩ := List.append_inj hrs1 (by simp; omega)
    simp only [List.cons.injEq, and_true] at hrs2
    obtain ⟨rfl, rfl, rfl⟩ := hrs2
    obtain ⟨hv, hver⟩ := Props.readVersion_ok h1
    obtain ⟨hi, hi'⟩ := (readSlotIndex_iff 8192 (by decide) i' _).mp h3
    obtain ⟨hj, hj'⟩ := (readSlotIndex_iff 1 (by decide) j' _).mp h5
    obtain ⟨hs1, hs2⟩ := (fromForkEntry_iff _ _ _ _ _).mp h10
    rw [List.length_map] at hc
    obtain ⟨hm1, hm2⟩ := (readBlocks_iff cb _ slots mid' e.blocks hc).mp h7
    have hrec : v' :: mid' ++ [s', i', j'] = Props.EraSpec.records (mid'.map (·.2)) s'.2 e.blockIndex e.stateIndex := by
      unfold Props.EraSpec.records
      rw [← hm1, ← hi, ← hj, hv]
      have : s' = (0x0200, s'.2) := by
        obtain ⟨t, x⟩ := s'
        simp only at hs1
        rw [hs1]; rfl
      rw [← this]
    unfold blockSlots at h6
    split at h6
    · cases h6
    · rename_i hge
      rw [show (fileBytes (v' :: mid' ++ [s', i', j'])).length - 65560 - 32 = (fileBytes (v' :: mid' ++ [s', i', j'])).length - 65592
        from by omega] at h6
      obtain ⟨g1, g2⟩ := (slotsFrom_iff _ _ _ 0 slots).mp h6
      refine ⟨mid'.map (·.2), s'.2, by rw [hrec], ?_, hver, hi', hj', g1, ?_, f, (beaconFork_iff _ _).mp h8, hs2⟩
      · rw [← hrec]; exact hshort
      · rw [g2] at hm2; exact hm2
  · rintro ⟨raws, raw, rfl, hshort, hver, hbi, hsi, hslots, hreads, f, hf, hd⟩
    have hge := fileBytes_records_length raws raw e.blockIndex e.stateIndex hbi hsi
    obtain ⟨l1, l2⟩ := reads_length hreads
    generalize hL : Props.EraSpec.slotsFrom _ _ _ = L at hslots hreads l1 l2
    have hback : (L.map UInt64.ofNat).map (·.toNat) = L := by
      rw [List.map_map]
      conv => rhs; rw [← List.map_id L]
      apply List.map_congr_left
      intro s hs
      simp only [Function.comp, UInt64.toNat_ofNat', id]
      exact Nat.mod_eq_of_lt (hslots s hs)
    refine ⟨Entry.new 0x6532 [], raws.map fun b => Entry.new 0x0100 b, Entry.new 0x0200 raw,
      Entry.new (Props.EraSpec.indexRecord e.blockIndex).1 (Props.EraSpec.indexRecord e.blockIndex).2,
      Entry.new (Props.EraSpec.indexRecord e.stateIndex).1 (Props.EraSpec.indexRecord e.stateIndex).2,
      (Props.C38_roundtrip _ hshort).trans ?_, ?_, ?_, ?_, L.map UInt64.ofNat, ?_, ?_, ?_, f,
      (beaconFork_iff _ _).mpr hf, (fromForkEntry_iff compressedState cs (0x0200, raw) f e.state).mpr ⟨rfl, hd⟩⟩
    · simp [Props.EraSpec.records, Function.comp_def]
    · rw [hver]; exact readVersion_versionEntry
    · exact (readSlotIndex_iff 8192 (by decide) _ _).mpr ⟨rfl, hbi⟩
    · exact (readSlotIndex_iff 1 (by decide) _ _).mpr ⟨rfl, hsi⟩
    · unfold blockSlots
      rw [if_neg (by omega)]
      refine (slotsFrom_iff _ _ _ 0 _).mpr ⟨?_, ?_⟩
      · rw [show ∀ n : Nat, n - 65560 - 32 = n - 65592 from by omega]
        rw [Nat.add_zero, hL]; exact hslots
      · rw [show ∀ n : Nat, n - 65560 - 32 = n - 65592 from by omega]
        rw [Nat.add_zero, hL]; exact hback
    · simp [l1]
    · have := (readBlocks_iff cb [Entry.new 0x0200 raw,
          Entry.new (Props.EraSpec.indexRecord e.blockIndex).1 (Props.EraSpec.indexRecord e.blockIndex).2,
          Entry.new (Props.EraSpec.indexRecord e.stateIndex).1 (Props.EraSpec.indexRecord e.stateIndex).2]
        (L.map UInt64.ofNat) (raws.map fun b => ((0x0100 : UInt16), b)) e.blocks (by simp [l1])).mpr ⟨by simp [Function.comp_def], by
          rw [hback]; simpa [Function.comp_def] using hreads⟩
      simpa [Function.comp_def] using this

/-! ## Aborts -/

theorem bind_panic {α β : Type} {r : Res α} {f : α → Res β} : r.bind f = .panic ↔ r = .panic ∨ ∃ a, r = .ok a ∧ f a = .panic := by
  cases r <;> simp [Res.bind]

theorem readVersion_no_panic (e : Entry) : readVersion e ≠ .panic := by
  unfold readVersion
  repeat' split
  all_goals simp

theorem readSlotIndex_no_panic (n : Nat) (e : Entry) : readSlotIndex n e ≠ .panic := by
  unfold readSlotIndex
  repeat' split
  all_goals simp

theorem fromForkEntry_no_panic {α : Type} (t : UInt16) (c : ForkCodec α) (e : Entry) (f : Fork) :
    fromForkEntry t c e f ≠ .panic := by
  unfold fromForkEntry
  repeat' split
  all_goals simp

theorem beaconFork_no_panic {slot : UInt64} (h : 4636672 ≤ slot.toNat) : beaconFork slot ≠ .panic := by
  have e1 : slot < 4636672 ↔ slot.toNat < 4636672 := UInt64.lt_iff_toNat_lt
  unfold beaconFork
  simp only [e1]
  rw [if_neg (by omega)]
  repeat' split
  all_goals simp

theorem readBlocks_no_panic {B : Type} (c : ForkCodec B) : ∀ (slots : List UInt64) (es : List Entry), slots.length ≤ es.length →
    (∀ s ∈ slots, 4636672 ≤ s.toNat) → readBlocks c slots es ≠ .panic
  | [], _, _, _ => by simp [readBlocks]
  | s :: slots, [], h, _ => by simp at h
  | s :: slots, e :: es, h, hs => by
    intro hp
    simp only [readBlocks] at hp
    rcases bind_panic.mp hp with hp | ⟨f, -, hp⟩
    · exact beaconFork_no_panic (hs s List.mem_cons_self) hp
    · rcases bind_panic.mp hp with hp | ⟨b, -, hp⟩
      · exact fromForkEntry_no_panic _ _ _ _ hp
      · unfold Res.map at hp
        rcases bind_panic.mp hp with hp | ⟨bs, -, hp⟩
        · exact readBlocks_no_panic c slots es (by simpa using h) (fun x hx => hs x (List.mem_cons_of_mem _ hx)) hp
        · cases hp

theorem offsetSlots_no_panic (marker start : UInt64) : ∀ (l : List UInt64) (i : Nat), start.toNat + i + l.length ≤ 2 ^ 64 →
    ∃ ss, offsetSlots marker start i l = .ok ss ∧ ∀ s ∈ ss, start.toNat + i ≤ s.toNat
  | [], i, _ => ⟨[], rfl, by simp⟩
  | o :: l, i, h => by
    rw [List.length_cons] at h
    obtain ⟨ss, h1, h2⟩ := offsetSlots_no_panic marker start l (i + 1) (by omega)
    simp only [offsetSlots]
    split
    · exact ⟨ss, h1, fun s hs => by have := h2 s hs; omega⟩
    · rw [if_neg (by omega), h1]
      refine ⟨_, rfl, ?_⟩
      intro s hs
      rcases List.mem_cons.mp hs with rfl | hs
      · rw [UInt64.toNat_ofNat', Nat.mod_eq_of_lt (by omega)]; exact Nat.le_refl _
      · have := h2 s hs; omega

end Verif.Era
