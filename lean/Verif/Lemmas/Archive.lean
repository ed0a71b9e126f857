import Verif.Model.Archive
import Verif.Lemmas.E2store
import Verif.Lemmas.Distance

namespace Verif.Archive
open Verif.E2store

theorem serialize_eq (t : UInt16) (v : Bytes) : (Entry.new t v).serialize =
    if 8 + (UInt32.ofNat v.length).toNat > 2 ^ 32 - 1 then .err
    else if v.length ≠ (UInt32.ofNat v.length).toNat then .panic
    else .ok ((Entry.new t v).header.bytes ++ v) := rfl

theorem writeAll_ok : ∀ (rs : List (UInt16 × Bytes)) (room : Nat) (bs : Bytes),
    writeAll room (rs.map fun r => Entry.new r.1 r.2) = .ok bs → Short rs
  | [], _, _, _ => by simp [Short]
  | r :: rs, room, bs, h => by
    simp only [List.map_cons, writeAll] at h
    split at h
    · cases h
    · have hs : r.2.length + 8 < 2 ^ 32 := by
        cases hser : (Entry.new r.1 r.2).serialize with
        | ok b =>
          rw [serialize_eq] at hser
          by_cases h1 : 8 + (UInt32.ofNat r.2.length).toNat > 2 ^ 32 - 1
          · rw [if_pos h1] at hser; cases hser
          · rw [if_neg h1] at hser
            by_cases h2 : r.2.length ≠ (UInt32.ofNat r.2.length).toNat
            · rw [if_pos h2] at hser; cases hser
            · simp only [ne_eq, Decidable.not_not] at h2; omega
        | err => rw [hser] at h; cases h
        | panic => rw [hser] at h; cases h
      rw [serialize_new hs] at h
      cases hw : writeAll (room - (Entry.new r.1 r.2).length) (rs.map fun r => Entry.new r.1 r.2) with
      | ok b =>
        have := writeAll_ok rs _ b hw
        intro x hx
        rcases List.mem_cons.mp hx with rfl | hx
        · exact hs
        · exact this x hx
      | err => rw [hw] at h; cases h
      | panic => rw [hw] at h; cases h

theorem writeExact_iff (rs : List (UInt16 × Bytes)) (bs : Bytes) :
    writeExact (rs.map fun r => Entry.new r.1 r.2) = .ok bs ↔ Short rs ∧ bs = fileBytes rs := by
  constructor
  · intro h
    have hs := writeAll_ok rs _ bs h
    rw [writeExact_records rs hs] at h
    cases h
    exact ⟨hs, rfl⟩
  · rintro ⟨hs, rfl⟩
    exact writeExact_records rs hs

/-- What a tuple format has to satisfy. -/
structure Lawful {T : Type} (f : TupleFormat T) (records : T → List (UInt16 × Bytes)) : Prop where
  write : ∀ t, f.write t = (records t).map fun r => Entry.new r.1 r.2
  width : ∀ t, (records t).length = f.width
  read : ∀ t, f.read (f.write t) = .ok t

theorem Lawful.writes {T : Type} {f : TupleFormat T} {records : T → List (UInt16 × Bytes)}
    (h : Lawful f records) (ts : List T) :
    ts.flatMap f.write = (ts.flatMap records).map fun r => Entry.new r.1 r.2 := by
  induction ts with
  | nil => rfl
  | cons t ts ih => simp [h.write, ih]

theorem Lawful.length {T : Type} {f : TupleFormat T} {records : T → List (UInt16 × Bytes)}
    (h : Lawful f records) (ts : List T) : (ts.flatMap records).length = ts.length * f.width := by
  induction ts with
  | nil => simp
  | cons t ts ih => simp [h.width, ih, Nat.add_mul, Nat.add_comm]

theorem readTuples_write {T : Type} {f : TupleFormat T} {records : T → List (UInt16 × Bytes)}
    (h : Lawful f records) (ts : List T) (rest : List Entry) :
    readTuples f ts.length (ts.flatMap f.write ++ rest) = .ok ts := by
  induction ts with
  | nil => rfl
  | cons t ts ih =>
    have hl : (f.write t).length = f.width := by rw [h.write, List.length_map, h.width]
    simp only [List.length_cons, readTuples, List.flatMap_cons, List.append_assoc]
    rw [if_neg (by simp [hl]), List.take_left' hl, List.drop_left' hl, h.read, ih]
    rfl

/-- More tuples than there are, with less than one tuple's worth of entries after them. -/
theorem readTuples_over {T : Type} {f : TupleFormat T} {records : T → List (UInt16 × Bytes)}
    (h : Lawful f records) (ts : List T) (rest : List Entry) (hr : rest.length < f.width) (n : Nat)
    (hn : ts.length < n) : readTuples f n (ts.flatMap f.write ++ rest) = .panic := by
  induction ts generalizing n with
  | nil =>
    obtain ⟨m, rfl⟩ : ∃ m, n = m + 1 := ⟨n - 1, by simp at hn; omega⟩
    simp only [List.flatMap_nil, List.nil_append, readTuples, hr, if_true]
  | cons t ts ih =>
    obtain ⟨m, rfl⟩ : ∃ m, n = m + 1 := ⟨n - 1, by simp at hn; omega⟩
    have hl : (f.write t).length = f.width := by rw [h.write, List.length_map, h.width]
    simp only [readTuples, List.flatMap_cons, List.append_assoc]
    rw [if_neg (by simp [hl]), List.take_left' hl, List.drop_left' hl, h.read, ih m (by simpa using hn)]
    rfl

theorem readTuples_ok {T : Type} (f : TupleFormat T) : ∀ (n : Nat) (es : List Entry) (ts : List T),
    readTuples f n es = .ok ts → ts.length = n ∧ n * f.width ≤ es.length ∧
      ∀ i t, ts[i]? = some t → f.read ((es.drop (i * f.width)).take f.width) = .ok t
  | 0, es, ts, h => by
    cases h
    simp
  | n + 1, es, ts, h => by
    rw [readTuples] at h
    split at h
    · cases h
    · next hl =>
      cases hr : f.read (es.take f.width) with
      | err => rw [hr] at h; cases h
      | panic => rw [hr] at h; cases h
      | ok t =>
        rw [hr] at h
        cases hrest : readTuples f n (es.drop f.width) with
        | err => simp [Res.bind, hrest, Res.map] at h
        | panic => simp [Res.bind, hrest, Res.map] at h
        | ok ts' =>
          simp only [Res.bind, hrest, Res.map] at h
          cases h
          obtain ⟨h1, h2, h3⟩ := readTuples_ok f n _ ts' hrest
          rw [List.length_drop] at h2
          refine ⟨by simp [h1], by rw [Nat.add_mul]; omega, fun i t' hi => ?_⟩
          cases i with
          | zero => simp only [List.getElem?_cons_zero] at hi; cases hi; simpa using hr
          | succ i =>
            have := h3 i t' (by simpa using hi)
            rw [List.drop_drop] at this
            rw [show (i + 1) * f.width = f.width + i * f.width by rw [Nat.add_mul]; omega]
            exact this

theorem u64At_flatMap : ∀ (l : List UInt64) (k : Nat) (h : k < l.length),
    u64At (l.flatMap fun i => toLe 8 i.toNat) (k * 8) = l[k]
  | a :: l, 0, _ => by
    simp only [u64At, List.flatMap_cons, Nat.zero_mul, List.drop_zero, List.getElem_cons_zero]
    rw [List.take_left' (toLe_length _ _), fromLe_toLe_of_lt (by have := a.toNat_lt; omega)]
    exact UInt64.ofNat_toNat
  | a :: l, k + 1, h => by
    have ih := u64At_flatMap l k (by simpa using h)
    simp only [u64At, List.flatMap_cons, List.getElem_cons_succ] at *
    rw [show (k + 1) * 8 = 8 + k * 8 by omega, ← List.drop_drop, List.drop_left' (toLe_length _ _)]
    exact ih

theorem flatMap_length8 (l : List UInt64) : (l.flatMap fun i => toLe 8 i.toNat).length = l.length * 8 := by
  induction l with
  | nil => rfl
  | cons a l ih => simp only [List.flatMap_cons, List.length_append, toLe_length, ih, List.length_cons]; omega

theorem ofValue_toEntry (b : BlockIndex) : BlockIndex.ofValue b.toEntry.value = b := by
  have hl : (b.startingNumber :: b.indices ++ [b.count]).length = b.indices.length + 2 := by simp
  have hlen : ((b.startingNumber :: b.indices ++ [b.count]).flatMap fun i => toLe 8 i.toNat).length =
      (b.indices.length + 2) * 8 := by rw [flatMap_length8, hl]
  have hn : ((b.indices.length + 2) * 8 - 16) / 8 = b.indices.length := by omega
  have hg := u64At_flatMap (b.startingNumber :: b.indices ++ [b.count])
  obtain ⟨s, ix, c⟩ := b
  simp only [BlockIndex.ofValue, BlockIndex.toEntry, Entry.new] at *
  rw [hlen, hn]
  have h0 := hg 0 (by omega)
  have hc := hg (ix.length + 1) (by omega)
  rw [Nat.zero_mul] at h0
  rw [show (ix.length + 1) * 8 = ix.length * 8 + 8 by omega] at hc
  rw [h0, hc]
  have hix : (List.range ix.length).map (fun i => u64At ((s :: ix ++ [c]).flatMap fun i => toLe 8 i.toNat)
      (i * 8 + 8)) = ix := ?_
  · rw [hix]
    simp
  apply List.ext_getElem (by simp)
  intro i h1 h2
  have := hg (i + 1) (by omega)
  rw [show (i + 1) * 8 = i * 8 + 8 by omega] at this
  rw [List.getElem_map, List.getElem_range, this]
  simp [List.getElem_append_left h2]

theorem readIndex_toEntry (lengths : List Nat) (b : BlockIndex)
    (h : (b.indices.length + 2) * 8 ∈ lengths) (hs : (b.indices.length + 2) * 8 < 2 ^ 32) :
    readIndex lengths b.toEntry = .ok b := by
  have hl : (b.startingNumber :: b.indices ++ [b.count]).length = b.indices.length + 2 := by simp
  have hlen : b.toEntry.value.length = (b.indices.length + 2) * 8 := by
    rw [BlockIndex.toEntry, Entry.new, flatMap_length8, hl]
  have h1 : b.toEntry.header.type = blockIndexType := rfl
  have h2 : b.toEntry.header.reserved = 0 := rfl
  have h3 : b.toEntry.header.length.toNat = (b.indices.length + 2) * 8 := by
    have : b.toEntry.header.length = UInt32.ofNat b.toEntry.value.length := rfl
    rw [this, hlen]
    exact UInt32.toNat_ofNat_of_lt' hs
  simp only [readIndex, h1, h2, h3, hlen, h, ofValue_toEntry, ne_eq, not_true_eq_false, if_false]

theorem readWord_writeWord (t : UInt16) (x : BitVec 256) : readWord t (writeWord t x) = .ok x := by
  have hl : (Id.bytes x).length = 32 := Id.bytes_length x
  have e : writeWord t x = ⟨⟨t, 32, 0⟩, Id.bytes x⟩ := by
    rw [writeWord, Entry.new, hl]
    rfl
  have hb := Id.fromBe_bytes x
  rw [e]
  unfold readWord
  rw [if_neg (by simp), if_neg (by simp), if_neg (by simp), if_neg (by simp [hl])]
  show Res.ok (BitVec.ofNat 256 (fromBe (Id.bytes x))) = _
  rw [hb]
  simp

theorem fromEntry_toEntry {α : Type} (t : UInt16) (c : Codec α) (h : ∀ x, c.dec (c.enc x) = some x) (x : α) :
    fromEntry t c (toEntry t c x) = .ok x := by
  simp [fromEntry, toEntry, Entry.new, h]

theorem readVersion_versionEntry : readVersion versionEntry = .ok versionEntry := by decide

end Verif.Archive

namespace Verif.Archive
open Verif.E2store

theorem fileBytes_append (a b : List (UInt16 × Bytes)) : fileBytes (a ++ b) = fileBytes a ++ fileBytes b := by
  simp [fileBytes]

theorem serialize_ok_short (t : UInt16) (v b : Bytes) (h : (Entry.new t v).serialize = .ok b) :
    v.length + 8 < 2 ^ 32 := by
  rw [serialize_eq] at h
  by_cases h1 : 8 + (UInt32.ofNat v.length).toNat > 2 ^ 32 - 1
  · rw [if_pos h1] at h; cases h
  · rw [if_neg h1] at h
    by_cases h2 : v.length ≠ (UInt32.ofNat v.length).toNat
    · rw [if_pos h2] at h; cases h
    · simp only [ne_eq, Decidable.not_not] at h2; omega

theorem appendEntry_iff (w bs : Bytes) (r : UInt16 × Bytes) :
    appendEntry w (Entry.new r.1 r.2) = .ok bs ↔ r.2.length + 8 < 2 ^ 32 ∧ bs = w ++ recordBytes r := by
  constructor
  · intro h
    cases hs : (Entry.new r.1 r.2).serialize with
    | ok b =>
      have := serialize_ok_short _ _ _ hs
      rw [serialize_new this] at hs
      cases hs
      simp only [appendEntry, serialize_new this, Res.map, Res.bind] at h
      cases h
      exact ⟨this, rfl⟩
    | err => simp [appendEntry, hs, Res.map, Res.bind] at h
    | panic => simp [appendEntry, hs, Res.map, Res.bind] at h
  · rintro ⟨h, rfl⟩
    simp [appendEntry, serialize_new h, Res.map, Res.bind]

theorem appendEntries_iff : ∀ (rs : List (UInt16 × Bytes)) (w : Bytes) (off : Nat) (r : Bytes × Nat),
    appendEntries w off (rs.map fun r => Entry.new r.1 r.2) = .ok r ↔
      Short rs ∧ r = (w ++ fileBytes rs, off + (fileBytes rs).length)
  | [], w, off, r => by
    simp only [List.map_nil, appendEntries, fileBytes, List.flatMap_nil, List.append_nil,
      List.length_nil, Nat.add_zero, Res.ok.injEq]
    exact ⟨fun h => ⟨by simp [Short], h.symm⟩, fun h => h.2.symm⟩
  | a :: rs, w, off, r => by
    simp only [List.map_cons, appendEntries]
    have hl := recordBytes_length a
    have hb : fileBytes (a :: rs) = recordBytes a ++ fileBytes rs := rfl
    constructor
    · intro h
      cases ha : appendEntry w (Entry.new a.1 a.2) with
      | err => rw [ha] at h; cases h
      | panic => rw [ha] at h; cases h
      | ok w' =>
        obtain ⟨h1, rfl⟩ := (appendEntry_iff w w' a).mp ha
        rw [ha] at h
        simp only [Res.bind] at h
        obtain ⟨h2, rfl⟩ := (appendEntries_iff rs _ _ _).mp h
        refine ⟨?_, ?_⟩
        · intro x hx
          rcases List.mem_cons.mp hx with rfl | hx
          · exact h1
          · exact h2 x hx
        · have : (Entry.new a.1 a.2).length = 8 + a.2.length := by
            rw [Entry.length, new_length a.1 (by omega)]
          rw [hb, List.append_assoc, List.length_append, hl, this, Nat.add_assoc]
    · rintro ⟨h, rfl⟩
      have h1 := h a (by simp)
      rw [(appendEntry_iff w _ a).mpr ⟨h1, rfl⟩]
      simp only [Res.bind]
      rw [(appendEntries_iff rs _ _ _).mpr ⟨h.tail, rfl⟩]
      have : (Entry.new a.1 a.2).length = 8 + a.2.length := by
        rw [Entry.length, new_length a.1 (by omega)]
      rw [hb, List.append_assoc, List.length_append, hl, this, Nat.add_assoc]

theorem append_iff {T : Type} {f : TupleFormat T} {records : T → List (UInt16 × Bytes)} (hf : Lawful f records)
    (hash : T → Id) (w w' : Writer) (t : T) :
    w.append f hash t = .ok w' ↔ Short (records t) ∧ w' =
      { w with
        written := w.written ++ fileBytes (records t)
        offset := w.offset + (fileBytes (records t)).length
        indices := w.indices ++ [UInt64.ofNat w.offset]
        lastHash := if w.indices.length + 1 = 8192 then some (hash t) else w.lastHash } := by
  have hlen : (w.indices ++ [UInt64.ofNat w.offset]).length = w.indices.length + 1 := by simp
  simp only [Writer.append, hf.write, hlen, blocksPerE2hs]
  cases h : appendEntries w.written w.offset ((records t).map fun r => Entry.new r.1 r.2) with
  | ok r =>
    obtain ⟨hs, rfl⟩ := (appendEntries_iff _ _ _ _).mp h
    simp only [Res.map, Res.bind, Res.ok.injEq]
    exact ⟨fun h => ⟨hs, h.symm⟩, fun h => h.2.symm⟩
  | err =>
    simp only [Res.map, Res.bind, reduceCtorEq, false_iff]
    rintro ⟨hs, -⟩
    rw [(appendEntries_iff _ _ _ _).mpr ⟨hs, rfl⟩] at h
    cases h
  | panic =>
    simp only [Res.map, Res.bind, reduceCtorEq, false_iff]
    rintro ⟨hs, -⟩
    rw [(appendEntries_iff _ _ _ _).mpr ⟨hs, rfl⟩] at h
    cases h

/-- The state of a writer that has been given the tuples `ts`. -/
def stateAfter {T : Type} (records : T → List (UInt16 × Bytes)) (hash : T → Id) (epoch : UInt64) (ts : List T) :
    Writer where
  written := fileBytes ((versionType, []) :: ts.flatMap records)
  epoch := epoch
  offset := (fileBytes ((versionType, []) :: ts.flatMap records)).length
  indices := (List.range ts.length).map fun i =>
    UInt64.ofNat (fileBytes ((versionType, []) :: (ts.take i).flatMap records)).length
  lastHash := ts[8191]?.map hash

theorem create_eq {T : Type} (records : T → List (UInt16 × Bytes)) (hash : T → Id) (epoch : UInt64) :
    Writer.create epoch = .ok (stateAfter records hash epoch []) := by
  simp [Writer.create, appendEntry, versionEntry, Entry.serialize, Entry.length, Entry.new, Header.bytes,
    Res.map, Res.bind, stateAfter, fileBytes, recordBytes, versionType, toBe, toLe]

theorem stateAfter_snoc {T : Type} (records : T → List (UInt16 × Bytes)) (hash : T → Id) (epoch : UInt64)
    (ts : List T) (t : T) :
    stateAfter records hash epoch (ts ++ [t]) =
      let w := stateAfter records hash epoch ts
      { w with
        written := w.written ++ fileBytes (records t)
        offset := w.offset + (fileBytes (records t)).length
        indices := w.indices ++ [UInt64.ofNat w.offset]
        lastHash := if w.indices.length + 1 = 8192 then some (hash t) else w.lastHash } := by
  have h1 : fileBytes ((versionType, []) :: (ts ++ [t]).flatMap records) =
      fileBytes ((versionType, []) :: ts.flatMap records) ++ fileBytes (records t) := by
    simp [fileBytes]
  have hl : (ts ++ [t]).length = ts.length + 1 := by simp
  simp only [stateAfter, h1, hl, List.length_append (as := fileBytes _), Writer.mk.injEq, true_and,
    List.range_succ, List.map_append, List.map_cons, List.map_nil, List.length_map, List.length_range]
  refine ⟨?_, ?_⟩
  · congr 1
    · apply List.map_congr_left
      intro i hi
      rw [List.mem_range] at hi
      rw [List.take_append_of_le_length (by omega)]
    · rw [List.take_left' rfl]
  · split
    · next h =>
      have : ts.length = 8191 := by omega
      rw [List.getElem?_append_right (by omega), this]
      simp
    · next h =>
      by_cases h2 : 8191 < ts.length
      · rw [List.getElem?_append_left h2]
      · rw [List.getElem?_eq_none (by simp; omega), List.getElem?_eq_none (by omega)]

theorem appendAll_iff {T : Type} {f : TupleFormat T} {records : T → List (UInt16 × Bytes)} (hf : Lawful f records)
    (hash : T → Id) (epoch : UInt64) : ∀ (ts done : List T) (w : Writer),
    (stateAfter records hash epoch done).appendAll f hash ts = .ok w ↔
      Short (ts.flatMap records) ∧ w = stateAfter records hash epoch (done ++ ts)
  | [], done, w => by
    simp only [Writer.appendAll, Res.ok.injEq, List.append_nil, List.flatMap_nil]
    exact ⟨fun h => ⟨by simp [Short], h.symm⟩, fun h => h.2.symm⟩
  | t :: ts, done, w => by
    have hsplit : Short ((t :: ts).flatMap records) ↔ Short (records t) ∧ Short (ts.flatMap records) := by
      simp only [Short, List.flatMap_cons, List.mem_append]
      exact ⟨fun h => ⟨fun r hr => h r (Or.inl hr), fun r hr => h r (Or.inr hr)⟩,
        fun h r hr => hr.elim (h.1 r) (h.2 r)⟩
    have e : done ++ t :: ts = done ++ [t] ++ ts := by simp
    have hap := append_iff hf hash (stateAfter records hash epoch done)
    rw [hsplit, e]
    simp only [Writer.appendAll]
    cases h : (stateAfter records hash epoch done).append f hash t with
    | ok w' =>
      obtain ⟨hs, hw⟩ := (hap w' t).mp h
      have hw' : w' = stateAfter records hash epoch (done ++ [t]) := by
        rw [stateAfter_snoc]
        exact hw
      subst hw'
      simp only [Res.bind]
      rw [appendAll_iff hf hash epoch ts (done ++ [t]) w]
      exact ⟨fun h => ⟨⟨hs, h.1⟩, h.2⟩, fun h => ⟨h.1.2, h.2⟩⟩
    | err =>
      simp only [Res.bind, reduceCtorEq, false_iff]
      rintro ⟨⟨hs, -⟩, -⟩
      rw [(hap _ t).mpr ⟨hs, rfl⟩] at h
      cases h
    | panic =>
      simp only [Res.bind, reduceCtorEq, false_iff]
      rintro ⟨⟨hs, -⟩, -⟩
      rw [(hap _ t).mpr ⟨hs, rfl⟩] at h
      cases h

end Verif.Archive
