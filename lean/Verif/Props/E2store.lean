import Verif.Lemmas.E2store

/-! # C38: e2store files

A record is a type and a value. `fileBytes rs` is the file with the records `rs`: each as 2 bytes of type
(big endian), 4 bytes of length (little endian), 2 zero bytes and the value (Lemmas/E2store). `Short rs`
says that every record with its header is shorter than 2^32 bytes. -/

namespace Verif.Props
open Verif.E2store

/-- The layout in full, so that nothing below depends on how it is defined. -/
theorem C38_layout (t : UInt16) (v : Bytes) (rs : List (UInt16 × Bytes)) :
    fileBytes [] = [] ∧
    fileBytes ((t, v) :: rs) = [UInt8.ofNat (t.toNat / 256), UInt8.ofNat (t.toNat % 256),
      UInt8.ofNat (v.length % 256), UInt8.ofNat (v.length / 256 % 256),
      UInt8.ofNat (v.length / 65536 % 256), UInt8.ofNat (v.length / 16777216 % 256), 0, 0] ++ v ++
      fileBytes rs := by
  refine ⟨rfl, ?_⟩
  have h1 : t.toNat / 256 % 256 = t.toNat / 256 := Nat.mod_eq_of_lt (by have := t.toNat_lt; omega)
  simp [fileBytes, recordBytes, toBe, toLe, Nat.div_div_eq_div_mul, h1]

/-- Writing a file of less than 2^32 bytes gives its bytes; the writers of archives have no such limit on
the whole file. -/
theorem C38_write (rs : List (UInt16 × Bytes)) (h : Short rs) :
    writeExact (rs.map fun r => Entry.new r.1 r.2) = .ok (fileBytes rs) ∧
    ((fileBytes rs).length < 2 ^ 32 → serialize (rs.map fun r => Entry.new r.1 r.2) = .ok (fileBytes rs)) := by
  refine ⟨writeExact_records rs h, fun hl => ?_⟩
  have e : ((rs.map fun r => Entry.new r.1 r.2).map fun e => e.length % 2 ^ 32).sum =
      totalLength (rs.map fun r => Entry.new r.1 r.2) := by
    rw [totalLength]
    congr 1
    apply List.map_congr_left
    intro e he
    rw [List.mem_map] at he
    obtain ⟨r, hr, rfl⟩ := he
    have h1 := h r hr
    apply Nat.mod_eq_of_lt
    rw [Entry.length, new_length r.1 (by omega)]
    omega
  simp only [serialize, e, totalLength_records rs h, hl, if_true]
  exact writeAll_records rs _ h (Nat.le_refl _)

/-- Reading a file back gives its entries. -/
theorem C38_roundtrip (rs : List (UInt16 × Bytes)) (h : Short rs) :
    deserialize (fileBytes rs) = .ok (rs.map fun r => Entry.new r.1 r.2) := by
  have := deserialize_records rs [] h
  rw [List.append_nil] at this
  rw [this]
  simp [deserialize, aux_nil, Res.map, Res.bind]

/-- Nothing else is read: a file that is accepted is the bytes of the entries returned. -/
theorem C38_strict (bs : Bytes) (es : List Entry) (h : deserialize bs = .ok es) :
    ∃ rs, Short rs ∧ bs = fileBytes rs ∧ es = rs.map fun r => Entry.new r.1 r.2 := by
  obtain ⟨rs, rest, rfl, hs, hc⟩ := file_cases bs.length bs (Nat.le_refl _)
  rw [deserialize_records rs rest hs] at h
  rcases hc with rfl | ⟨_, hd, _⟩ | ⟨_, hd, _⟩
  · refine ⟨rs, hs, by simp, ?_⟩
    simp [deserialize, aux_nil, Res.map, Res.bind] at h
    exact h.symm
  · rw [hd] at h; cases h
  · rw [hd] at h; cases h

/-- A record whose declared length runs past the end of the file is refused with an error. Missing: declared
lengths of 2^32 - 8 or more, which abort (`C38_abort_iff`). -/
theorem C38_truncated_partial (rs : List (UInt16 × Bytes)) (h : Short rs) (t r : UInt16) (n : Nat) (v : Bytes)
    (hn : n + 8 < 2 ^ 32) (hv : v.length < n) :
    deserialize (fileBytes rs ++ (toBe 2 t.toNat ++ toLe 4 n ++ toLe 2 r.toNat ++ v)) = .err := by
  rw [deserialize_records rs _ h]
  have hl : (toBe 2 t.toNat ++ toLe 4 n ++ toLe 2 r.toNat ++ v).length = 7 + v.length + 1 := by
    simp; omega
  have hd : declared (toBe 2 t.toNat ++ toLe 4 n ++ toLe 2 r.toNat ++ v) = n :=
    declared_length t n r (by omega) v
  have : deserialize (toBe 2 t.toNat ++ toLe 4 n ++ toLe 2 r.toNat ++ v) = .err := by
    rw [deserialize, hl, round_eq, hd, hl]
    rw [if_neg (by intro e; rw [e] at hl; simp at hl), if_neg (by omega), if_neg (by omega),
      if_pos (by omega)]
  rw [this]
  rfl

/-- A record with a reserved field that is not zero is refused with an error. -/
theorem C38_reserved (rs : List (UInt16 × Bytes)) (h : Short rs) (t r : UInt16) (v rest : Bytes)
    (hv : v.length + 8 < 2 ^ 32) (hr : r ≠ 0) :
    deserialize (fileBytes rs ++ (toBe 2 t.toNat ++ toLe 4 v.length ++ toLe 2 r.toNat ++ (v ++ rest)))
      = .err := by
  rw [deserialize_records rs _ h]
  have hl : (toBe 2 t.toNat ++ toLe 4 v.length ++ toLe 2 r.toNat ++ (v ++ rest)).length =
      7 + v.length + rest.length + 1 := by
    simp; omega
  have hd : declared (toBe 2 t.toNat ++ toLe 4 v.length ++ toLe 2 r.toNat ++ (v ++ rest)) = v.length :=
    declared_length t v.length r (by omega) _
  have : deserialize (toBe 2 t.toNat ++ toLe 4 v.length ++ toLe 2 r.toNat ++ (v ++ rest)) = .err := by
    rw [deserialize, hl, round_eq, hd, hl]
    rw [if_neg (by intro e; rw [e] at hl; simp at hl), if_neg (by omega), if_neg (by omega),
      if_neg (by omega)]
    have he : Entry.deserialize ((toBe 2 t.toNat ++ toLe 4 v.length ++ toLe 2 r.toNat ++ (v ++ rest)).take
        (v.length + 8)) = .err := by
      simp only [Entry.deserialize]
      rw [if_neg (by rw [List.length_take, hl]; omega), List.take_take, Nat.min_eq_left (by omega),
        List.take_left' (by simp), header_deserialize t v.length r (by omega), if_neg hr]
      rfl
    rw [he]
    rfl
  rw [this]
  rfl

/-- Exactly the files that make the reader abort: whole records followed by 1 to 5 bytes, or by a record
that declares 2^32 - 8 bytes or more. Every other file is read or refused with an error. -/
theorem C38_abort_iff (bs : Bytes) : deserialize bs = .panic ↔
    ∃ rs rest, bs = fileBytes rs ++ rest ∧ Short rs ∧ rest ≠ [] ∧
      (rest.length < 6 ∨ 2 ^ 32 ≤ fromLe ((rest.drop 2).take 4) + 8) := by
  constructor
  · intro h
    obtain ⟨rs, rest, rfl, hs, hc⟩ := file_cases bs.length bs (Nat.le_refl _)
    rw [deserialize_records rs rest hs] at h
    rcases hc with rfl | ⟨_, hd, _⟩ | ⟨hne, hd, hx⟩
    · simp [deserialize, aux_nil, Res.map, Res.bind] at h
    · rw [hd] at h; cases h
    · exact ⟨rs, rest, rfl, hs, hne, hx⟩
  · rintro ⟨rs, rest, rfl, hs, hne, hx⟩
    rw [deserialize_records rs rest hs]
    have hpos : 0 < rest.length := List.length_pos_iff.mpr hne
    obtain ⟨g, hg⟩ : ∃ g, rest.length = g + 1 := ⟨rest.length - 1, by omega⟩
    have : deserialize rest = .panic := by
      rw [deserialize, hg, round_eq, if_neg hne]
      by_cases h6 : rest.length < 6
      · rw [if_pos h6]
      · rw [if_neg h6, if_pos (show 2 ^ 32 ≤ declared rest + 8 from hx.resolve_left h6)]
    rw [this]
    rfl

/-- Such files exist: the reader does not always refuse bad files with an error. -/
theorem C38_abort_violated : deserialize [0, 1, 2] = .panic ∧
    deserialize [0, 0, 0xff, 0xff, 0xff, 0xff, 0, 0] = .panic := by decide +kernel

/-- The streaming writer appends the same bytes, and the streaming reader gives the records one by one
and stops at the end. -/
theorem C38_stream (rs : List (UInt16 × Bytes)) (r : UInt16 × Bytes) (hr : r.2.length + 8 < 2 ^ 32) :
    appendEntry (fileBytes rs) (Entry.new r.1 r.2) = .ok (fileBytes (rs ++ [r])) ∧
    nextEntry (fileBytes (r :: rs)) = .ok (Entry.new r.1 r.2, fileBytes rs) ∧
    nextEntry (fileBytes []) = .error .eof := by
  obtain ⟨t, v⟩ := r
  simp only at hr
  refine ⟨?_, ?_, rfl⟩
  · simp [appendEntry, serialize_new hr, Res.map, Res.bind, fileBytes]
  · have e : fileBytes ((t, v) :: rs) = recordBytes (t, v) ++ fileBytes rs := rfl
    have hl := recordBytes_length (t, v)
    simp only at hl
    have hz : (toLe 2 (0 : UInt16).toNat) = [0, 0] := by decide
    have h8 : (recordBytes (t, v) ++ fileBytes rs).take 8 =
        toBe 2 t.toNat ++ toLe 4 v.length ++ toLe 2 (0 : UInt16).toNat := by
      rw [recordBytes, hz, List.append_assoc, List.take_left' (by simp)]
    have h8' : (recordBytes (t, v) ++ fileBytes rs).drop 8 = v ++ fileBytes rs := by
      rw [recordBytes, List.append_assoc, List.drop_left' (by simp)]
    have hn : (UInt32.ofNat v.length).toNat = v.length :=
      UInt32.toNat_ofNat_of_lt' (by show v.length < 2 ^ 32; omega)
    simp only [nextEntry, e]
    rw [if_neg (by rw [List.length_append, hl]; omega), h8, h8', header_deserialize t v.length 0 (by omega)]
    simp only [if_true, hn]
    rw [if_neg (by simp), List.take_left' rfl, List.drop_left' rfl]
    rfl

/-- The streaming reader returns only what the next bytes say. -/
theorem C38_stream_strict (rem rest : Bytes) (e : Entry) (h : nextEntry rem = .ok (e, rest)) :
    ∃ t v, e = Entry.new t v ∧ rem = recordBytes (t, v) ++ rest := by
  simp only [nextEntry] at h
  split at h
  · cases h
  · next hl =>
    obtain ⟨t, n, r, hn, hsplit⟩ := header_split (rem.take 8) (by simp; omega)
    rw [hsplit, header_deserialize t n r hn] at h
    by_cases hr : r = 0
    · subst hr
      simp only [if_true] at h
      rw [UInt32.toNat_ofNat_of_lt' (show n < UInt32.size from hn)] at h
      split at h
      · cases h
      · next hlen =>
        cases h
        have hvl : ((rem.drop 8).take n).length = n := by rw [List.length_take]; omega
        refine ⟨t, (rem.drop 8).take n, ?_, ?_⟩
        · rw [Entry.new, hvl]
        · have hz : (toLe 2 (0 : UInt16).toNat) = [0, 0] := by decide
          rw [recordBytes, hvl, List.append_assoc, List.take_append_drop, ← hz, ← hsplit,
            List.take_append_drop]
    · rw [if_neg hr] at h
      cases h

-- concrete cases (the first two from the unit tests of memory.rs)
example : fileBytes [(0x2a00, [0xbe, 0xef]), (0x0900, [0xab, 0xcd, 0xab, 0xcd])] =
    [0x2a, 0, 2, 0, 0, 0, 0, 0, 0xbe, 0xef, 9, 0, 4, 0, 0, 0, 0, 0, 0xab, 0xcd, 0xab, 0xcd] := by
  decide +kernel
example : deserialize [0xff, 0xff, 0, 0, 0, 0, 0, 1] = .err := by decide +kernel
example : deserialize [0xbe, 0xef, 1, 0, 0, 0, 0, 0] = .err := by decide +kernel
example : Short [(0x2a00, [0xbe, 0xef]), (0x0900, [0xab, 0xcd])] := by unfold Short; decide

end Verif.Props
