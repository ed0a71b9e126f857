import Verif.Model.E2store
import Verif.Lemmas.Bytes

namespace Verif.E2store

/-- The bytes of one record: 2 bytes of type, 4 bytes of length (little endian), 2 zero bytes, value. -/
def recordBytes (r : UInt16 × Bytes) : Bytes := toBe 2 r.1.toNat ++ toLe 4 r.2.length ++ [0, 0] ++ r.2

theorem new_length {v : Bytes} (t : UInt16) (h : v.length < 2 ^ 32) :
    (Entry.new t v).header.length.toNat = v.length := by
  simp only [Entry.new, UInt32.toNat_ofNat']
  exact Nat.mod_eq_of_lt h

theorem recordBytes_length (r : UInt16 × Bytes) : (recordBytes r).length = 8 + r.2.length := by
  simp [recordBytes]; omega

theorem serialize_new {t : UInt16} {v : Bytes} (h : v.length + 8 < 2 ^ 32) :
    (Entry.new t v).serialize = .ok (recordBytes (t, v)) := by
  have hl := new_length t (v := v) (by omega)
  have hv : (Entry.new t v).value = v := rfl
  simp only [Entry.serialize, Entry.length, hl, hv]
  rw [if_neg (by omega), if_neg (by simp)]
  simp only [Header.bytes, hl]
  have hz : toLe 2 (Entry.new t v).header.reserved.toNat = [0, 0] := by
    show toLe 2 (0 : UInt16).toNat = [0, 0]
    decide
  rw [hz]
  rfl

theorem header_deserialize (t : UInt16) (n : Nat) (r : UInt16) (hn : n < 2 ^ 32) :
    Header.deserialize (toBe 2 t.toNat ++ toLe 4 n ++ toLe 2 r.toNat) =
      if r = 0 then .ok ⟨t, UInt32.ofNat n, 0⟩ else .err := by
  have e1 : (toBe 2 t.toNat ++ toLe 4 n ++ toLe 2 r.toNat).take 2 = toBe 2 t.toNat := by
    rw [List.append_assoc, List.take_left' (by simp)]
  have e2 : ((toBe 2 t.toNat ++ toLe 4 n ++ toLe 2 r.toNat).drop 2).take 4 = toLe 4 n := by
    rw [List.append_assoc, List.drop_left' (by simp), List.take_left' (by simp)]
  have e3 : (toBe 2 t.toNat ++ toLe 4 n ++ toLe 2 r.toNat).drop 6 = toLe 2 r.toNat := by
    rw [List.drop_left' (by simp)]
  have ht : t.toNat < 256 ^ 2 := t.toNat_lt
  have hr : r.toNat < 256 ^ 2 := r.toNat_lt
  simp only [Header.deserialize, e1, e2, e3, fromBe_toBe_of_lt ht,
    fromLe_toLe_of_lt (n := 4) (show n < 256 ^ 4 by omega), fromLe_toLe_of_lt hr, UInt16.ofNat_toNat]
  rw [if_neg (by simp)]
  by_cases h : r = 0
  · simp [h]
  · simp [h]

/-- Header bytes seen as type, length and reserved field. -/
theorem header_split (bs : Bytes) (h : bs.length = 8) : ∃ (t : UInt16) (n : Nat) (r : UInt16), n < 2 ^ 32 ∧
    bs = toBe 2 t.toNat ++ toLe 4 n ++ toLe 2 r.toNat := by
  refine ⟨UInt16.ofNat (fromBe (bs.take 2)), fromLe ((bs.drop 2).take 4),
    UInt16.ofNat (fromLe (bs.drop 6)), ?_, ?_⟩
  · have := fromLe_lt ((bs.drop 2).take 4)
    have hl : ((bs.drop 2).take 4).length = 4 := by simp; omega
    rw [hl] at this
    exact this
  · have l1 : (bs.take 2).length = 2 := by simp; omega
    have l2 : ((bs.drop 2).take 4).length = 4 := by simp; omega
    have l3 : (bs.drop 6).length = 2 := by simp; omega
    have b1 := fromBe_lt (bs.take 2)
    have b3 := fromLe_lt (bs.drop 6)
    rw [l1] at b1
    rw [l3] at b3
    have e1 := toBe_fromBe (bs.take 2)
    have e2 := toLe_fromLe ((bs.drop 2).take 4)
    have e3 := toLe_fromLe (bs.drop 6)
    rw [l1] at e1
    rw [l2] at e2
    rw [l3] at e3
    rw [UInt16.toNat_ofNat_of_lt' (Nat.lt_of_lt_of_le b1 (by decide)),
      UInt16.toNat_ofNat_of_lt' (Nat.lt_of_lt_of_le b3 (by decide)), e1, e2, e3]
    rw [show bs.drop 6 = (bs.drop 2).drop 4 by rw [List.drop_drop], List.append_assoc,
      List.take_append_drop, List.take_append_drop]

theorem declared_length (t : UInt16) (n : Nat) (r : UInt16) (hn : n < 2 ^ 32) (rest : Bytes) :
    fromLe (((toBe 2 t.toNat ++ toLe 4 n ++ toLe 2 r.toNat ++ rest).drop 2).take 4) = n := by
  rw [List.append_assoc, List.append_assoc, List.drop_left' (by simp), List.take_left' (by simp)]
  exact fromLe_toLe_of_lt (by omega)

/-- One round on a record. -/
theorem round_record (fuel : Nat) (r : UInt16 × Bytes) (rest : Bytes) (h : r.2.length + 8 < 2 ^ 32) :
    deserializeAux (fuel + 1) (recordBytes r ++ rest) =
      (deserializeAux fuel rest).map (Entry.new r.1 r.2 :: ·) := by
  obtain ⟨t, v⟩ := r
  simp only at h
  have hl := recordBytes_length (t, v)
  simp only at hl
  have hz : (toLe 2 (0 : UInt16).toNat) = [0, 0] := by decide
  have hd := declared_length t v.length 0 (by omega) (v ++ rest)
  rw [hz] at hd
  have hrec : recordBytes (t, v) ++ rest = toBe 2 t.toNat ++ toLe 4 v.length ++ [0, 0] ++ (v ++ rest) := by
    simp [recordBytes]
  rw [← hrec] at hd
  have hlen : (recordBytes (t, v) ++ rest).length = 8 + v.length + rest.length := by
    rw [List.length_append, hl]
  rw [deserializeAux]
  rw [if_neg (by intro e; rw [e] at hlen; simp at hlen; omega), if_neg (by omega)]
  simp only [hd]
  rw [if_neg (by omega), if_neg (by omega), List.take_left' (by omega), List.drop_left' (by omega)]
  have he : Entry.deserialize (recordBytes (t, v)) = .ok (Entry.new t v) := by
    simp only [Entry.deserialize, hl]
    rw [if_neg (by omega)]
    have h8 : (recordBytes (t, v)).take 8 = toBe 2 t.toNat ++ toLe 4 v.length ++ toLe 2 (0 : UInt16).toNat := by
      rw [recordBytes, hz, List.take_left' (by simp)]
    have h8' : (recordBytes (t, v)).drop 8 = v := by
      rw [recordBytes, List.drop_left' (by simp)]
    rw [h8, h8', header_deserialize t v.length 0 (by omega)]
    simp only [if_true, Res.bind]
    rw [if_neg]
    · rfl
    · rw [UInt32.toNat_ofNat_of_lt' (by show v.length < 2 ^ 32; omega)]; omega
  rw [he]
  rfl

/-- The length the input declares for its first record. -/
def declared (rem : Bytes) : Nat := fromLe ((rem.drop 2).take 4)

theorem round_eq (fuel : Nat) (rem : Bytes) : deserializeAux (fuel + 1) rem =
    if rem = [] then .ok []
    else if rem.length < 6 then .panic
    else if 2 ^ 32 ≤ declared rem + 8 then .panic
    else if rem.length < declared rem + 8 then .err
    else
      (Entry.deserialize (rem.take (declared rem + 8))).bind fun e =>
        (deserializeAux fuel (rem.drop (declared rem + 8))).map (e :: ·) := rfl

/-- What the first round does on any input: it reads a record, or refuses, or aborts. -/
theorem round_cases (fuel : Nat) (rem : Bytes) (hne : rem ≠ []) :
    (∃ r rest, rem = recordBytes r ++ rest ∧ r.2.length + 8 < 2 ^ 32) ∨
    (deserializeAux (fuel + 1) rem = .err ∧ 6 ≤ rem.length ∧ declared rem + 8 < 2 ^ 32) ∨
    (deserializeAux (fuel + 1) rem = .panic ∧ (rem.length < 6 ∨ 2 ^ 32 ≤ declared rem + 8)) := by
  by_cases h6 : rem.length < 6
  · right; right
    refine ⟨?_, Or.inl h6⟩
    rw [round_eq, if_neg hne, if_pos h6]
  · by_cases hbig : 2 ^ 32 ≤ declared rem + 8
    · right; right
      refine ⟨?_, Or.inr hbig⟩
      rw [round_eq, if_neg hne, if_neg h6]
      rw [if_pos hbig]
    · by_cases hshort : rem.length < declared rem + 8
      · right; left
        refine ⟨?_, by omega, by omega⟩
        rw [round_eq, if_neg hne, if_neg h6]
        rw [if_neg hbig, if_pos hshort]
      · have hl8 : 8 ≤ rem.length := by omega
        obtain ⟨t, n, r, hn, hsplit⟩ := header_split (rem.take 8) (by simp; omega)
        have hrem : rem = toBe 2 t.toNat ++ toLe 4 n ++ toLe 2 r.toNat ++ rem.drop 8 := by
          rw [← hsplit, List.take_append_drop]
        have hdn : declared rem = n := by
          rw [hrem]; exact declared_length t n r hn _
        by_cases hr : r = 0
        · subst hr
          left
          refine ⟨(t, (rem.drop 8).take n), (rem.drop 8).drop n, ?_, ?_⟩
          · have hvl : ((rem.drop 8).take n).length = n := by simp; omega
            rw [recordBytes, hvl, List.append_assoc, List.take_append_drop]
            exact hrem
          · show ((rem.drop 8).take n).length + 8 < 2 ^ 32
            rw [List.length_take]
            omega
        · right; left
          refine ⟨?_, by omega, by omega⟩
          rw [round_eq, if_neg hne, if_neg h6]
          rw [if_neg hbig, if_neg hshort]
          have he : Entry.deserialize (rem.take (declared rem + 8)) = .err := by
            simp only [Entry.deserialize]
            rw [if_neg (by simp; omega), List.take_take, Nat.min_eq_left (by omega), hsplit,
              header_deserialize t n r hn, if_neg hr]
            rfl
          rw [he]
          rfl

end Verif.E2store

namespace Verif.E2store

/-- The bytes of a file, record after record. -/
def fileBytes (rs : List (UInt16 × Bytes)) : Bytes := rs.flatMap recordBytes

/-- The records of a file are short enough for their length field. -/
def Short (rs : List (UInt16 × Bytes)) : Prop := ∀ r ∈ rs, r.2.length + 8 < 2 ^ 32

theorem Short.tail {r : UInt16 × Bytes} {rs : List (UInt16 × Bytes)} (h : Short (r :: rs)) : Short rs :=
  fun x hx => h x (List.mem_cons_of_mem _ hx)

theorem aux_nil (fuel : Nat) : deserializeAux fuel [] = .ok [] := by
  cases fuel <;> simp [deserializeAux]

/-- Reading whole records and then a rest. -/
theorem aux_records : ∀ (rs : List (UInt16 × Bytes)) (rest : Bytes) (fuel : Nat), Short rs →
    deserializeAux (rs.length + fuel) (fileBytes rs ++ rest) =
      (deserializeAux fuel rest).map ((rs.map fun r => Entry.new r.1 r.2) ++ ·)
  | [], rest, fuel, _ => by
    simp only [fileBytes, List.flatMap_nil, List.nil_append, List.length_nil, Nat.zero_add, List.map_nil]
    cases deserializeAux fuel rest <;> rfl
  | r :: rs, rest, fuel, h => by
    have e : (r :: rs).length + fuel = rs.length + fuel + 1 := by simp; omega
    have hb : fileBytes (r :: rs) ++ rest = recordBytes r ++ (fileBytes rs ++ rest) := by
      simp [fileBytes]
    rw [e, hb, round_record _ _ _ (h r (by simp)), aux_records rs rest fuel h.tail]
    cases deserializeAux fuel rest <;> simp [Res.map, Res.bind]

theorem fileBytes_length_ge : ∀ rs : List (UInt16 × Bytes), 8 * rs.length ≤ (fileBytes rs).length
  | [] => by simp
  | r :: rs => by
    have := fileBytes_length_ge rs
    have h2 := recordBytes_length r
    simp only [fileBytes, List.flatMap_cons, List.length_append, List.length_cons] at *
    omega

/-- Enough fuel is enough. -/
theorem aux_fuel : ∀ (fuel : Nat) (rem : Bytes), rem.length ≤ fuel →
    deserializeAux fuel rem = deserializeAux rem.length rem := by
  have key : ∀ (n fuel : Nat) (rem : Bytes), rem.length ≤ n → rem.length ≤ fuel →
      deserializeAux fuel rem = deserializeAux rem.length rem := by
    intro n
    induction n with
    | zero =>
      intro fuel rem hn _
      have : rem = [] := List.length_eq_zero_iff.mp (by omega)
      subst this
      rw [aux_nil, aux_nil]
    | succ n ih =>
      intro fuel rem hn hf
      by_cases hne : rem = []
      · subst hne; rw [aux_nil, aux_nil]
      · have hpos : 0 < rem.length := List.length_pos_iff.mpr hne
        obtain ⟨f, rfl⟩ : ∃ f, fuel = f + 1 := ⟨fuel - 1, by omega⟩
        obtain ⟨g, hg⟩ : ∃ g, rem.length = g + 1 := ⟨rem.length - 1, by omega⟩
        rw [hg]
        have hd : (rem.drop (declared rem + 8)).length ≤ g := by
          rw [List.length_drop]; omega
        rw [round_eq, round_eq, ih f _ (by omega) (by omega), ih g _ (by omega) hd]
  intro fuel rem h
  exact key rem.length fuel rem (Nat.le_refl _) h

theorem deserialize_records (rs : List (UInt16 × Bytes)) (rest : Bytes) (h : Short rs) :
    deserialize (fileBytes rs ++ rest) =
      (deserialize rest).map ((rs.map fun r => Entry.new r.1 r.2) ++ ·) := by
  have h1 := aux_records rs rest (fileBytes rs ++ rest).length h
  rw [aux_fuel _ _ (by omega), aux_fuel _ rest (by simp)] at h1
  exact h1

/-- Every file is a sequence of records followed by a rest that ends reading. -/
theorem file_cases : ∀ (n : Nat) (bs : Bytes), bs.length ≤ n → ∃ rs rest, bs = fileBytes rs ++ rest ∧ Short rs ∧
    (rest = [] ∨
    (rest ≠ [] ∧ deserialize rest = .err ∧ 6 ≤ rest.length ∧ declared rest + 8 < 2 ^ 32) ∨
    (rest ≠ [] ∧ deserialize rest = .panic ∧ (rest.length < 6 ∨ 2 ^ 32 ≤ declared rest + 8)))
  | 0, bs, h => ⟨[], [], by
      have : bs = [] := List.length_eq_zero_iff.mp (by omega)
      subst this; rfl, by simp [Short], Or.inl rfl⟩
  | n + 1, bs, h => by
    by_cases hne : bs = []
    · exact ⟨[], [], by subst hne; rfl, by simp [Short], Or.inl rfl⟩
    · have hpos : 0 < bs.length := List.length_pos_iff.mpr hne
      obtain ⟨g, hg⟩ : ∃ g, bs.length = g + 1 := ⟨bs.length - 1, by omega⟩
      have hd : deserialize bs = deserializeAux (g + 1) bs := by rw [deserialize, hg]
      rcases round_cases g bs hne with ⟨r, rest, he, hr⟩ | ⟨h1, h2⟩ | ⟨h1, h2⟩
      · have hl := recordBytes_length r
        have hlen : rest.length ≤ n := by
          rw [he, List.length_append] at h; omega
        obtain ⟨rs, rest', he', hs, hc⟩ := file_cases n rest hlen
        refine ⟨r :: rs, rest', ?_, ?_, hc⟩
        · rw [he, he']; simp [fileBytes]
        · intro x hx
          rcases List.mem_cons.mp hx with rfl | hx
          · exact hr
          · exact hs x hx
      · exact ⟨[], bs, rfl, by simp [Short], Or.inr (Or.inl ⟨hne, hd.trans h1, h2⟩)⟩
      · exact ⟨[], bs, rfl, by simp [Short], Or.inr (Or.inr ⟨hne, hd.trans h1, h2⟩)⟩

theorem writeAll_records : ∀ (rs : List (UInt16 × Bytes)) (room : Nat), Short rs →
    (fileBytes rs).length ≤ room →
    writeAll room (rs.map fun r => Entry.new r.1 r.2) = .ok (fileBytes rs)
  | [], _, _, _ => rfl
  | r :: rs, room, h, hr => by
    have h1 := h r (by simp)
    have hl := recordBytes_length r
    have hel : (Entry.new r.1 r.2).length = 8 + r.2.length := by
      rw [Entry.length, new_length r.1 (by omega)]
    have hb : (fileBytes (r :: rs)).length = 8 + r.2.length + (fileBytes rs).length := by
      simp only [fileBytes, List.flatMap_cons, List.length_append, hl]
    simp only [List.map_cons, writeAll]
    rw [if_neg (by omega), serialize_new h1]
    simp only [Res.bind]
    rw [writeAll_records rs _ h.tail (by omega)]
    simp [Res.map, Res.bind, fileBytes]

theorem totalLength_records : ∀ (rs : List (UInt16 × Bytes)), Short rs →
    totalLength (rs.map fun r => Entry.new r.1 r.2) = (fileBytes rs).length
  | [], _ => rfl
  | r :: rs, h => by
    have h1 := h r (by simp)
    have ih := totalLength_records rs h.tail
    have hl := recordBytes_length r
    have hel : (Entry.new r.1 r.2).length = 8 + r.2.length := by
      rw [Entry.length, new_length r.1 (by omega)]
    simp only [totalLength, List.map_cons, List.sum_cons, fileBytes, List.flatMap_cons,
      List.length_append] at *
    omega

theorem writeExact_records (rs : List (UInt16 × Bytes)) (h : Short rs) :
    writeExact (rs.map fun r => Entry.new r.1 r.2) = .ok (fileBytes rs) := by
  rw [writeExact, totalLength_records rs h]
  exact writeAll_records rs _ h (Nat.le_refl _)

end Verif.E2store
