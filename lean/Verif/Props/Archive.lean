import Verif.Lemmas.Archive
import Verif.Props.E2store

/-! # C39: era1 and e2hs archives

The encodings of headers, bodies and receipts (RLP or SSZ, compressed) are arbitrary; that decoding undoes
encoding is a hypothesis. -/

namespace Verif.Props
open Verif.E2store Verif.Archive

/-! ## Specification -/

def Codec.Lossless {α : Type} (c : Codec α) : Prop := ∀ x, c.dec (c.enc x) = some x

/-- The records of a block in an era1 file. -/
def era1Records {H B R : Type} (c : Era1Codecs H B R) (t : Era1Tuple H B R) : List (UInt16 × Bytes) :=
  [(0x0300, c.header.enc t.header), (0x0400, c.body.enc t.body), (0x0500, c.receipts.enc t.receipts),
    (0x0600, toBe 32 t.totalDifficulty.toNat)]

/-- The records of a block in an e2hs file. -/
def e2hsRecords {H B R : Type} (c : E2hsCodecs H B R) (t : E2hsTuple H B R) : List (UInt16 × Bytes) :=
  [(0x0301, c.headerWithProof.enc t.headerWithProof), (0x0400, c.body.enc t.body),
    (0x0500, c.receipts.enc t.receipts)]

/-- The block index: first block number, offsets, number of blocks, each as 8 bytes (little endian). -/
def indexRecord (b : BlockIndex) : UInt16 × Bytes :=
  (0x6632, toLe 8 b.startingNumber.toNat ++ (b.indices.flatMap fun i => toLe 8 i.toNat) ++ toLe 8 b.count.toNat)

/-- All records of an era1 file. -/
def era1File {H B R : Type} (c : Era1Codecs H B R) (ts : List (Era1Tuple H B R)) (acc : BitVec 256)
    (b : BlockIndex) : List (UInt16 × Bytes) :=
  (0x6532, []) :: ts.flatMap (era1Records c) ++ [(0x0700, toBe 32 acc.toNat), indexRecord b]

/-- All records of an e2hs file. -/
def e2hsFile {H B R : Type} (c : E2hsCodecs H B R) (ts : List (E2hsTuple H B R)) (b : BlockIndex) :
    List (UInt16 × Bytes) :=
  (0x6532, []) :: ts.flatMap (e2hsRecords c) ++ [indexRecord b]

/-! ## Helpers -/

theorem indexRecord_toEntry (b : BlockIndex) :
    b.toEntry = Entry.new (indexRecord b).1 (indexRecord b).2 := by
  simp [BlockIndex.toEntry, indexRecord, blockIndexType]

theorem era1_lawful {H B R : Type} (c : Era1Codecs H B R) (hh : Codec.Lossless c.header)
    (hb : Codec.Lossless c.body) (hr : Codec.Lossless c.receipts) : Lawful (era1Format c) (era1Records c) where
  write _ := rfl
  width _ := rfl
  read t := by
    simp only [era1Format, fromEntry_toEntry _ _ hh, fromEntry_toEntry _ _ hb, fromEntry_toEntry _ _ hr,
      readWord_writeWord, Res.bind]

theorem e2hs_lawful {H B R : Type} (c : E2hsCodecs H B R) (hh : Codec.Lossless c.headerWithProof)
    (hb : Codec.Lossless c.body) (hr : Codec.Lossless c.receipts) : Lawful (e2hsFormat c) (e2hsRecords c) where
  write _ := rfl
  width _ := rfl
  read t := by
    simp only [e2hsFormat, fromEntry_toEntry _ _ hh, fromEntry_toEntry _ _ hb, fromEntry_toEntry _ _ hr,
      Res.bind]

theorem era1_writes {H B R : Type} (c : Era1Codecs H B R) (ts : List (Era1Tuple H B R)) :
    ts.flatMap (era1Format c).write = (ts.flatMap (era1Records c)).map fun r => Entry.new r.1 r.2 := by
  induction ts with
  | nil => rfl
  | cons t ts ih => rw [List.flatMap_cons, List.flatMap_cons, List.map_append, ih]; rfl

theorem e2hs_writes {H B R : Type} (c : E2hsCodecs H B R) (ts : List (E2hsTuple H B R)) :
    ts.flatMap (e2hsFormat c).write = (ts.flatMap (e2hsRecords c)).map fun r => Entry.new r.1 r.2 := by
  induction ts with
  | nil => rfl
  | cons t ts ih => rw [List.flatMap_cons, List.flatMap_cons, List.map_append, ih]; rfl

theorem era1File_length {H B R : Type} (c : Era1Codecs H B R) (ts : List (Era1Tuple H B R)) (acc : BitVec 256)
    (b : BlockIndex) : (era1File c ts acc b).length = ts.length * 4 + 3 := by
  have : (ts.flatMap (era1Records c)).length = ts.length * 4 := by
    induction ts with
    | nil => rfl
    | cons t ts ih => rw [List.flatMap_cons, List.length_append, ih]; simp [era1Records]; omega
  simp [era1File, this]

theorem e2hsFile_length {H B R : Type} (c : E2hsCodecs H B R) (ts : List (E2hsTuple H B R))
    (b : BlockIndex) : (e2hsFile c ts b).length = ts.length * 3 + 2 := by
  have : (ts.flatMap (e2hsRecords c)).length = ts.length * 3 := by
    induction ts with
    | nil => rfl
    | cons t ts ih => rw [List.flatMap_cons, List.length_append, ih]; simp [e2hsRecords]; omega
  simp [e2hsFile, this]

theorem era1_entries {H B R : Type} (c : Era1Codecs H B R) (ts : List (Era1Tuple H B R)) (acc : BitVec 256)
    (b : BlockIndex) : (era1File c ts acc b).map (fun r => Entry.new r.1 r.2) =
      versionEntry :: (ts.flatMap (era1Format c).write ++ [writeWord accumulatorType acc, b.toEntry]) := by
  rw [era1_writes, indexRecord_toEntry, era1File, List.cons_append, List.map_cons, List.map_append]
  rfl

theorem e2hs_entries {H B R : Type} (c : E2hsCodecs H B R) (ts : List (E2hsTuple H B R))
    (b : BlockIndex) : (e2hsFile c ts b).map (fun r => Entry.new r.1 r.2) =
      versionEntry :: (ts.flatMap (e2hsFormat c).write ++ [b.toEntry]) := by
  rw [e2hs_writes, indexRecord_toEntry, e2hsFile, List.cons_append, List.map_cons, List.map_append]
  rfl

theorem fromEntry_ok {α : Type} (t : UInt16) (c : Codec α) (r : UInt16 × Bytes) (x : α)
    (h : fromEntry t c (Entry.new r.1 r.2) = .ok x) : r = (t, r.2) ∧ c.dec r.2 = some x := by
  unfold fromEntry at h
  split at h
  · cases h
  · next ht =>
    have ht : r.1 = t := Decidable.not_not.mp ht
    rw [if_neg (by simp [Entry.new])] at h
    split at h
    · cases h
    · next y hy =>
      cases h
      exact ⟨by rw [← ht], hy⟩

theorem readWord_ok (t : UInt16) (r : UInt16 × Bytes) (x : BitVec 256)
    (h : readWord t (Entry.new r.1 r.2) = .ok x) : r = (t, toBe 32 x.toNat) := by
  unfold readWord at h
  split at h
  · cases h
  · next ht =>
    split at h
    · cases h
    · rw [if_neg (by simp [Entry.new])] at h
      split at h
      · cases h
      · next hl =>
        have ht : r.1 = t := Decidable.not_not.mp ht
        have hl : r.2.length = 32 := Decidable.not_not.mp hl
        have h : BitVec.ofNat 256 (fromBe r.2) = x := by cases h; rfl
        subst h
        have hb := fromBe_lt r.2
        rw [hl] at hb
        have : (BitVec.ofNat 256 (fromBe r.2)).toNat = fromBe r.2 := by
          rw [BitVec.toNat_ofNat]; exact Nat.mod_eq_of_lt (by simpa using hb)
        rw [this, ← hl, toBe_fromBe, ← ht]

theorem readVersion_ok {r : UInt16 × Bytes} {v : Entry} (h : readVersion (Entry.new r.1 r.2) = .ok v) :
    r = (0x6532, []) ∧ v = versionEntry := by
  obtain ⟨t, b⟩ := r
  unfold readVersion at h
  split at h
  · cases h
  · next ht =>
    split at h
    · cases h
    · rw [if_neg (by simp [Entry.new])] at h
      split at h
      · cases h
      · next hl =>
        have ht' : t = versionType := Decidable.not_not.mp ht
        have hl' : b = [] := Decidable.not_not.mp hl
        subst hl' ht'
        cases h
        exact ⟨rfl, rfl⟩

theorem chunks8 (v : Bytes) (n : Nat) : ((List.range n).flatMap fun i => (v.drop (i * 8 + 8)).take 8) =
    (v.drop 8).take (n * 8) := by
  induction n with
  | zero => simp
  | succ n ih =>
    rw [List.range_succ, List.flatMap_append, ih, Nat.add_mul, List.take_add, List.drop_drop]
    simp [Nat.add_comm]

theorem toLe_u64At (v : Bytes) (pos : Nat) (h : pos + 8 ≤ v.length) :
    toLe 8 (u64At v pos).toNat = (v.drop pos).take 8 := by
  have hl : ((v.drop pos).take 8).length = 8 := by simp; omega
  have hb := fromLe_lt ((v.drop pos).take 8)
  rw [hl] at hb
  rw [u64At, UInt64.toNat_ofNat_of_lt' (by simpa using hb)]
  have := toLe_fromLe ((v.drop pos).take 8)
  rwa [hl] at this

theorem indexRecord_ofValue (v : Bytes) (n : Nat) (h : v.length = (n + 2) * 8) :
    indexRecord (BlockIndex.ofValue v) = (0x6632, v) := by
  have hn : (v.length - 16) / 8 = n := by omega
  simp only [indexRecord, BlockIndex.ofValue, hn, Prod.mk.injEq, true_and]
  rw [toLe_u64At v 0 (by omega), toLe_u64At v (n * 8 + 8) (by omega), List.flatMap_map]
  have : ((List.range n).flatMap fun i => toLe 8 (u64At v (i * 8 + 8)).toNat) =
      (List.range n).flatMap fun i => (v.drop (i * 8 + 8)).take 8 := by
    rw [List.flatMap_def, List.flatMap_def]
    congr 1
    apply List.map_congr_left
    intro i hi
    rw [List.mem_range] at hi
    rw [toLe_u64At v _ (by omega)]
  rw [this, chunks8, List.drop_zero, List.append_assoc]
  have e : (v.drop (n * 8 + 8)).take 8 = (v.drop 8).drop (n * 8) := by
    rw [List.take_of_length_le (by simp; omega), List.drop_drop, Nat.add_comm]
  rw [e, List.take_append_drop, List.take_append_drop]

theorem readIndex_ok (lengths : List Nat) (r : UInt16 × Bytes) (b : BlockIndex)
    (hl : ∀ n ∈ lengths, ∃ k, n = (k + 2) * 8) (h : readIndex lengths (Entry.new r.1 r.2) = .ok b) :
    r = indexRecord b := by
  unfold readIndex at h
  split at h
  · cases h
  · next ht =>
    split at h
    · cases h
    · rw [if_neg (by simp [Entry.new])] at h
      split at h
      · cases h
      · next hlen =>
        have ht : r.1 = blockIndexType := Decidable.not_not.mp ht
        have hlen : r.2.length ∈ lengths := Decidable.not_not.mp hlen
        obtain ⟨k, hk⟩ := hl _ hlen
        have h : BlockIndex.ofValue r.2 = b := by cases h; rfl
        subst h
        rw [indexRecord_ofValue r.2 k hk]
        obtain ⟨t, v⟩ := r
        simp only at ht
        rw [ht]
        rfl

theorem era1_read_ok {H B R : Type} (c : Era1Codecs H B R) (rs : List (UInt16 × Bytes)) (t : Era1Tuple H B R)
    (h : (era1Format c).read (rs.map fun r => Entry.new r.1 r.2) = .ok t) :
    ∃ v₀ v₁ v₂ v₃, rs = [(0x0300, v₀), (0x0400, v₁), (0x0500, v₂), (0x0600, v₃)] ∧
      c.header.dec v₀ = some t.header ∧ c.body.dec v₁ = some t.body ∧
      c.receipts.dec v₂ = some t.receipts ∧ v₃ = toBe 32 t.totalDifficulty.toNat := by
  match rs, h with
  | [], h => cases h
  | [_], h => cases h
  | [_, _], h => cases h
  | [_, _, _], h => cases h
  | _ :: _ :: _ :: _ :: _ :: _, h => cases h
  | [r₀, r₁, r₂, r₃], h =>
    simp only [era1Format, List.map_cons, List.map_nil] at h
    cases h0 : fromEntry compressedHeader c.header (Entry.new r₀.1 r₀.2) with
    | err => rw [h0] at h; cases h
    | panic => rw [h0] at h; cases h
    | ok x0 =>
    cases h1 : fromEntry compressedBody c.body (Entry.new r₁.1 r₁.2) with
    | err => rw [h0, h1] at h; cases h
    | panic => rw [h0, h1] at h; cases h
    | ok x1 =>
    cases h2 : fromEntry compressedReceipts c.receipts (Entry.new r₂.1 r₂.2) with
    | err => rw [h0, h1, h2] at h; cases h
    | panic => rw [h0, h1, h2] at h; cases h
    | ok x2 =>
    cases h3 : readWord totalDifficultyType (Entry.new r₃.1 r₃.2) with
    | err => rw [h0, h1, h2, h3] at h; cases h
    | panic => rw [h0, h1, h2, h3] at h; cases h
    | ok x3 =>
      rw [h0, h1, h2, h3] at h
      cases h
      obtain ⟨e0, d0⟩ := fromEntry_ok _ _ _ _ h0
      obtain ⟨e1, d1⟩ := fromEntry_ok _ _ _ _ h1
      obtain ⟨e2, d2⟩ := fromEntry_ok _ _ _ _ h2
      have e3 := readWord_ok _ _ _ h3
      refine ⟨r₀.2, r₁.2, r₂.2, toBe 32 x3.toNat, ?_, d0, d1, d2, rfl⟩
      rw [e0, e1, e2, e3]
      rfl

theorem e2hs_read_ok {H B R : Type} (c : E2hsCodecs H B R) (rs : List (UInt16 × Bytes)) (t : E2hsTuple H B R)
    (h : (e2hsFormat c).read (rs.map fun r => Entry.new r.1 r.2) = .ok t) :
    ∃ v₀ v₁ v₂, rs = [(0x0301, v₀), (0x0400, v₁), (0x0500, v₂)] ∧
      c.headerWithProof.dec v₀ = some t.headerWithProof ∧ c.body.dec v₁ = some t.body ∧
      c.receipts.dec v₂ = some t.receipts := by
  match rs, h with
  | [], h => cases h
  | [_], h => cases h
  | [_, _], h => cases h
  | _ :: _ :: _ :: _ :: _, h => cases h
  | [r₀, r₁, r₂], h =>
    simp only [e2hsFormat, List.map_cons, List.map_nil] at h
    cases h0 : fromEntry compressedHeaderWithProof c.headerWithProof (Entry.new r₀.1 r₀.2) with
    | err => rw [h0] at h; cases h
    | panic => rw [h0] at h; cases h
    | ok x0 =>
    cases h1 : fromEntry compressedBody c.body (Entry.new r₁.1 r₁.2) with
    | err => rw [h0, h1] at h; cases h
    | panic => rw [h0, h1] at h; cases h
    | ok x1 =>
    cases h2 : fromEntry compressedReceipts c.receipts (Entry.new r₂.1 r₂.2) with
    | err => rw [h0, h1, h2] at h; cases h
    | panic => rw [h0, h1, h2] at h; cases h
    | ok x2 =>
      rw [h0, h1, h2] at h
      cases h
      obtain ⟨e0, d0⟩ := fromEntry_ok _ _ _ _ h0
      obtain ⟨e1, d1⟩ := fromEntry_ok _ _ _ _ h1
      obtain ⟨e2, d2⟩ := fromEntry_ok _ _ _ _ h2
      refine ⟨r₀.2, r₁.2, r₂.2, ?_, d0, d1, d2⟩
      rw [e0, e1, e2]
      rfl

/-! ## era1 -/

/-- When and what `Era1::write` writes: exactly 8192 or 5362 blocks, in order, between the version record
and the accumulator and index records. -/
theorem C39_era1_write {H B R : Type} (c : Era1Codecs H B R) (ts : List (Era1Tuple H B R)) (acc : BitVec 256)
    (b : BlockIndex) (bs : Bytes) :
    Era1.write (era1Format c) ⟨versionEntry, ts, acc, b⟩ = .ok bs ↔
      (ts.length = 8192 ∨ ts.length = 5362) ∧ Short (era1File c ts acc b) ∧
        bs = fileBytes (era1File c ts acc b) := by
  have hl := era1File_length c ts acc b
  have he := era1_entries c ts acc b
  have hl2 : (versionEntry :: (ts.flatMap (era1Format c).write ++
      [writeWord accumulatorType acc, b.toEntry])).length = ts.length * 4 + 3 := by
    rw [← he, List.length_map, hl]
  simp only [Era1.write, List.cons_append, hl2]
  rw [← he]
  have hm : ts.length * 4 + 3 ∈ era1EntryCounts ↔ ts.length = 8192 ∨ ts.length = 5362 := by
    simp only [era1EntryCounts, List.mem_cons, List.not_mem_nil, or_false]
    omega
  by_cases h : ts.length = 8192 ∨ ts.length = 5362
  · rw [if_neg (by rw [hm]; exact fun h' => h' h), writeExact_iff]
    simp [h]
  · rw [if_pos (by rw [hm]; exact h)]
    simp [h]

/-- A written era1 file is read back unchanged, as a whole or block by block. -/
theorem C39_era1_roundtrip {H B R : Type} (c : Era1Codecs H B R) (hh : Codec.Lossless c.header)
    (hb : Codec.Lossless c.body) (hr : Codec.Lossless c.receipts)
    (ts : List (Era1Tuple H B R)) (acc : BitVec 256) (b : BlockIndex) (bs : Bytes)
    (hw : Era1.write (era1Format c) ⟨versionEntry, ts, acc, b⟩ = .ok bs)
    (hi : b.indices.length = ts.length) (hc : b.count.toNat = ts.length) :
    Era1.deserialize (era1Format c) bs = .ok ⟨versionEntry, ts, acc, b⟩ ∧
    Era1.iterTuples (era1Format c) bs = .ok ts := by
  obtain ⟨hn, hs, rfl⟩ := (C39_era1_write c ts acc b bs).mp hw
  have hlaw := era1_lawful c hh hb hr
  have hread := C38_roundtrip _ hs
  have hl := era1File_length c ts acc b
  have he := era1_entries c ts acc b
  rw [he] at hread
  have hl2 : (versionEntry :: (ts.flatMap (era1Format c).write ++
      [writeWord accumulatorType acc, b.toEntry])).length = ts.length * 4 + 3 := by
    rw [← he, List.length_map, hl]
  have hm : ts.length * 4 + 3 ∈ era1EntryCounts := by
    simp only [era1EntryCounts, List.mem_cons, List.not_mem_nil, or_false]
    omega
  have hlast : (versionEntry :: (ts.flatMap (era1Format c).write ++
      [writeWord accumulatorType acc, b.toEntry])).getLast? = some b.toEntry := by
    rw [show versionEntry :: (ts.flatMap (era1Format c).write ++ [writeWord accumulatorType acc, b.toEntry]) =
      (versionEntry :: ts.flatMap (era1Format c).write ++ [writeWord accumulatorType acc]) ++ [b.toEntry] by simp,
      List.getLast?_concat]
  have hidx : readIndex [65552, 42912] b.toEntry = .ok b := by
    apply readIndex_toEntry
    · rw [hi]
      simp only [List.mem_cons, List.not_mem_nil, or_false]
      omega
    · rw [hi]; omega
  have htup := readTuples_write hlaw ts [writeWord accumulatorType acc, b.toEntry]
  have hw4 : (ts.flatMap (era1Format c).write).length = ts.length * 4 := by
    simp only [List.length_cons, List.length_append, List.length_nil] at hl2
    omega
  have hacc : (versionEntry :: (ts.flatMap (era1Format c).write ++
      [writeWord accumulatorType acc, b.toEntry]))[ts.length * 4 + 1]? =
      some (writeWord accumulatorType acc) := by
    rw [List.getElem?_cons_succ, List.getElem?_append_right (by omega), hw4, Nat.sub_self]
    rfl
  constructor
  · simp only [Era1.deserialize, hread, Res.bind, hl2, hm, not_true_eq_false, if_false, hlast,
      readVersion_versionEntry, hidx, hc, htup, hacc, readWord_writeWord]
  · simp only [Era1.iterTuples, hread, Res.bind, hlast, hidx, hc, List.drop_succ_cons, List.drop_zero, htup]

/-- What a file that is accepted says: its records are a version record, then for each block counted by
the index the four records the block was decoded from, then the accumulator; the index is the last. -/
theorem C39_era1_strict {H B R : Type} (c : Era1Codecs H B R) (bs : Bytes) (e : Era1 (Era1Tuple H B R))
    (h : Era1.deserialize (era1Format c) bs = .ok e) :
    ∃ rs, Short rs ∧ bs = fileBytes rs ∧ (rs.length = 32771 ∨ rs.length = 21451) ∧
      rs[0]? = some (0x6532, []) ∧ e.version = versionEntry ∧
      e.tuples.length = e.index.count.toNat ∧
      (∀ i t, e.tuples[i]? = some t → ∃ v₀ v₁ v₂ v₃,
        (rs.drop (4 * i + 1)).take 4 = [(0x0300, v₀), (0x0400, v₁), (0x0500, v₂), (0x0600, v₃)] ∧
        c.header.dec v₀ = some t.header ∧ c.body.dec v₁ = some t.body ∧
        c.receipts.dec v₂ = some t.receipts ∧ v₃ = toBe 32 t.totalDifficulty.toNat) ∧
      rs[4 * e.tuples.length + 1]? = some (0x0700, toBe 32 e.accumulator.toNat) ∧
      rs.getLast? = some (indexRecord e.index) := by
  simp only [Era1.deserialize] at h
  cases hd : E2store.deserialize bs with
  | err => rw [hd] at h; cases h
  | panic => rw [hd] at h; cases h
  | ok es =>
    obtain ⟨rs, hs, rfl, rfl⟩ := C38_strict bs es hd
    rw [hd] at h
    simp only [Res.bind] at h
    split at h
    · cases h
    · next hm =>
      rw [Decidable.not_not, List.length_map] at hm
      cases rs with
      | nil => cases hm with | tail _ hm => cases hm with | tail _ hm => cases hm
      | cons r₀ rs =>
        cases hlast : (r₀ :: rs).getLast? with
        | none => simp at hlast
        | some rl =>
          have hlast' : ((r₀ :: rs).map fun r => Entry.new r.1 r.2).getLast? = some (Entry.new rl.1 rl.2) := by
            rw [List.getLast?_map, hlast]; rfl
          rw [hlast'] at h
          simp only [List.map_cons] at h
          cases hv : readVersion (Entry.new r₀.1 r₀.2) with
          | err => rw [hv] at h; cases h
          | panic => rw [hv] at h; cases h
          | ok ver =>
            cases hi : readIndex [65552, 42912] (Entry.new rl.1 rl.2) with
            | err => rw [hv, hi] at h; cases h
            | panic => rw [hv, hi] at h; cases h
            | ok ix =>
              rw [hv, hi] at h
              simp only at h
              cases ht : readTuples (era1Format c) ix.count.toNat (rs.map fun r => Entry.new r.1 r.2) with
              | err => rw [ht] at h; cases h
              | panic => rw [ht] at h; cases h
              | ok ts =>
                rw [ht] at h
                simp only at h
                split at h
                · cases h
                · next a ha =>
                  cases hacc : readWord accumulatorType a with
                  | err => rw [hacc] at h; cases h
                  | panic => rw [hacc] at h; cases h
                  | ok acc =>
                    rw [hacc] at h
                    cases h
                    obtain ⟨h1, h2, h3⟩ := readTuples_ok _ _ _ _ ht
                    obtain ⟨hr0, hver⟩ := readVersion_ok hv
                    have hix := readIndex_ok _ rl ix (by
                      intro n hn
                      simp only [List.mem_cons, List.not_mem_nil, or_false] at hn
                      rcases hn with rfl | rfl
                      · exact ⟨8192, rfl⟩
                      · exact ⟨5362, rfl⟩) hi
                    refine ⟨r₀ :: rs, hs, rfl, ?_, by rw [hr0]; rfl, hver, h1, ?_, ?_, by rw [hlast, hix]⟩
                    · simpa [era1EntryCounts] using hm
                    · intro i t hit
                      have := h3 i t hit
                      rw [← List.map_drop, ← List.map_take] at this
                      rw [List.drop_succ_cons, Nat.mul_comm]
                      exact era1_read_ok c _ t this
                    · simp only at ha ⊢
                      rw [List.getElem?_cons_succ, List.getElem?_map] at ha
                      rw [List.getElem?_cons_succ, h1, Nat.mul_comm]
                      cases hg : rs[ix.count.toNat * 4]? with
                      | none => rw [hg] at ha; cases ha
                      | some ra =>
                        rw [hg] at ha
                        cases ha
                        rw [readWord_ok _ ra acc hacc]
                        rfl

/-- An era1 file that counts more blocks than it has makes the reader abort. -/
theorem C39_era1_count_violated {H B R : Type} (c : Era1Codecs H B R) (hh : Codec.Lossless c.header)
    (hb : Codec.Lossless c.body) (hr : Codec.Lossless c.receipts)
    (ts : List (Era1Tuple H B R)) (acc : BitVec 256) (b : BlockIndex) (bs : Bytes)
    (hw : Era1.write (era1Format c) ⟨versionEntry, ts, acc, b⟩ = .ok bs)
    (hi : b.indices.length = ts.length) (hc : ts.length < b.count.toNat) :
    Era1.deserialize (era1Format c) bs = .panic := by
  obtain ⟨hn, hs, rfl⟩ := (C39_era1_write c ts acc b bs).mp hw
  have hlaw := era1_lawful c hh hb hr
  have hread := C38_roundtrip _ hs
  have hl := era1File_length c ts acc b
  have he := era1_entries c ts acc b
  rw [he] at hread
  have hl2 : (versionEntry :: (ts.flatMap (era1Format c).write ++
      [writeWord accumulatorType acc, b.toEntry])).length = ts.length * 4 + 3 := by
    rw [← he, List.length_map, hl]
  have hm : ts.length * 4 + 3 ∈ era1EntryCounts := by
    simp only [era1EntryCounts, List.mem_cons, List.not_mem_nil, or_false]
    omega
  have hlast : (versionEntry :: (ts.flatMap (era1Format c).write ++
      [writeWord accumulatorType acc, b.toEntry])).getLast? = some b.toEntry := by
    rw [show versionEntry :: (ts.flatMap (era1Format c).write ++ [writeWord accumulatorType acc, b.toEntry]) =
      (versionEntry :: ts.flatMap (era1Format c).write ++ [writeWord accumulatorType acc]) ++ [b.toEntry] by simp,
      List.getLast?_concat]
  have hidx : readIndex [65552, 42912] b.toEntry = .ok b := by
    apply readIndex_toEntry
    · rw [hi]
      simp only [List.mem_cons, List.not_mem_nil, or_false]
      omega
    · rw [hi]; omega
  have htup := readTuples_over hlaw ts [writeWord accumulatorType acc, b.toEntry] (show 2 < 4 by decide) _ hc
  simp only [Era1.deserialize, hread, Res.bind, hl2, hm, not_true_eq_false, if_false, hlast,
    readVersion_versionEntry, hidx, htup]

/-! ## e2hs -/

/-- When and what `E2HSMemory::write` writes. -/
theorem C39_e2hs_write {H B R : Type} (c : E2hsCodecs H B R) (ts : List (E2hsTuple H B R))
    (b : BlockIndex) (bs : Bytes) :
    E2hs.write (e2hsFormat c) ⟨versionEntry, ts, b⟩ = .ok bs ↔
      ts.length = 8192 ∧ Short (e2hsFile c ts b) ∧ bs = fileBytes (e2hsFile c ts b) := by
  have hl := e2hsFile_length c ts b
  have he := e2hs_entries c ts b
  have hl2 : (versionEntry :: (ts.flatMap (e2hsFormat c).write ++ [b.toEntry])).length = ts.length * 3 + 2 := by
    rw [← he, List.length_map, hl]
  simp only [E2hs.write, List.cons_append, hl2, e2hsEntryCount]
  rw [← he]
  by_cases h : ts.length = 8192
  · rw [if_neg (by omega), writeExact_iff]
    simp [h]
  · rw [if_pos (by omega)]
    simp [h]

/-- A written e2hs file is read back unchanged, as a whole or block by block. -/
theorem C39_e2hs_roundtrip {H B R : Type} (c : E2hsCodecs H B R) (hh : Codec.Lossless c.headerWithProof)
    (hb : Codec.Lossless c.body) (hr : Codec.Lossless c.receipts)
    (ts : List (E2hsTuple H B R)) (b : BlockIndex) (bs : Bytes)
    (hw : E2hs.write (e2hsFormat c) ⟨versionEntry, ts, b⟩ = .ok bs)
    (hi : b.indices.length = ts.length) (hc : b.count.toNat = ts.length) :
    E2hs.deserialize (e2hsFormat c) bs = .ok ⟨versionEntry, ts, b⟩ ∧
    E2hs.iterTuples (e2hsFormat c) bs = .ok ts := by
  obtain ⟨hn, hs, rfl⟩ := (C39_e2hs_write c ts b bs).mp hw
  have hlaw := e2hs_lawful c hh hb hr
  have hread := C38_roundtrip _ hs
  have hl := e2hsFile_length c ts b
  have he := e2hs_entries c ts b
  rw [he] at hread
  have hl2 : (versionEntry :: (ts.flatMap (e2hsFormat c).write ++ [b.toEntry])).length = ts.length * 3 + 2 := by
    rw [← he, List.length_map, hl]
  have hm : ts.length * 3 + 2 = e2hsEntryCount := by rw [e2hsEntryCount]; omega
  have hlast : (versionEntry :: (ts.flatMap (e2hsFormat c).write ++ [b.toEntry])).getLast? = some b.toEntry := by
    rw [← List.cons_append, List.getLast?_concat]
  have hidx : readIndex [65552] b.toEntry = .ok b := by
    apply readIndex_toEntry
    · rw [hi, hn]; decide
    · rw [hi]; omega
  have htup := readTuples_write hlaw ts [b.toEntry]
  constructor
  · simp only [E2hs.deserialize, hread, Res.bind, hl2, hm, ne_eq, not_true_eq_false, if_false, hlast,
      readVersion_versionEntry, hidx, hc, htup]
  · simp only [E2hs.iterTuples, hread, Res.bind, hlast, hidx, hc, List.drop_succ_cons, List.drop_zero, htup]

/-- What a file that is accepted says. -/
theorem C39_e2hs_strict {H B R : Type} (c : E2hsCodecs H B R) (bs : Bytes) (e : E2hs (E2hsTuple H B R))
    (h : E2hs.deserialize (e2hsFormat c) bs = .ok e) :
    ∃ rs, Short rs ∧ bs = fileBytes rs ∧ rs.length = 24578 ∧
      rs[0]? = some (0x6532, []) ∧ e.version = versionEntry ∧
      e.tuples.length = e.index.count.toNat ∧
      (∀ i t, e.tuples[i]? = some t → ∃ v₀ v₁ v₂,
        (rs.drop (3 * i + 1)).take 3 = [(0x0301, v₀), (0x0400, v₁), (0x0500, v₂)] ∧
        c.headerWithProof.dec v₀ = some t.headerWithProof ∧ c.body.dec v₁ = some t.body ∧
        c.receipts.dec v₂ = some t.receipts) ∧
      rs.getLast? = some (indexRecord e.index) := by
  simp only [E2hs.deserialize] at h
  cases hd : E2store.deserialize bs with
  | err => rw [hd] at h; cases h
  | panic => rw [hd] at h; cases h
  | ok es =>
    obtain ⟨rs, hs, rfl, rfl⟩ := C38_strict bs es hd
    rw [hd] at h
    simp only [Res.bind] at h
    split at h
    · cases h
    · next hm =>
      rw [Decidable.not_not, List.length_map] at hm
      cases rs with
      | nil => cases hm
      | cons r₀ rs =>
        cases hlast : (r₀ :: rs).getLast? with
        | none => simp at hlast
        | some rl =>
          have hlast' : ((r₀ :: rs).map fun r => Entry.new r.1 r.2).getLast? = some (Entry.new rl.1 rl.2) := by
            rw [List.getLast?_map, hlast]; rfl
          rw [hlast'] at h
          simp only [List.map_cons] at h
          cases hv : readVersion (Entry.new r₀.1 r₀.2) with
          | err => rw [hv] at h; cases h
          | panic => rw [hv] at h; cases h
          | ok ver =>
            cases hi : readIndex [65552] (Entry.new rl.1 rl.2) with
            | err => rw [hv, hi] at h; cases h
            | panic => rw [hv, hi] at h; cases h
            | ok ix =>
              rw [hv, hi] at h
              simp only at h
              cases ht : readTuples (e2hsFormat c) ix.count.toNat (rs.map fun r => Entry.new r.1 r.2) with
              | err => rw [ht] at h; cases h
              | panic => rw [ht] at h; cases h
              | ok ts =>
                rw [ht] at h
                cases h
                obtain ⟨h1, h2, h3⟩ := readTuples_ok _ _ _ _ ht
                obtain ⟨hr0, hver⟩ := readVersion_ok hv
                have hix := readIndex_ok _ rl ix (by
                  intro n hn
                  simp only [List.mem_cons, List.not_mem_nil, or_false] at hn
                  exact ⟨8192, hn⟩) hi
                refine ⟨r₀ :: rs, hs, rfl, ?_, by rw [hr0]; rfl, hver, h1, ?_, by rw [hlast, hix]⟩
                · rw [hm]; rfl
                · intro i t hit
                  have := h3 i t hit
                  rw [← List.map_drop, ← List.map_take] at this
                  rw [List.drop_succ_cons, Nat.mul_comm]
                  exact e2hs_read_ok c _ t this

/-- An e2hs file that counts more blocks than it has makes the reader abort. -/
theorem C39_e2hs_count_violated {H B R : Type} (c : E2hsCodecs H B R) (hh : Codec.Lossless c.headerWithProof)
    (hb : Codec.Lossless c.body) (hr : Codec.Lossless c.receipts)
    (ts : List (E2hsTuple H B R)) (b : BlockIndex) (bs : Bytes)
    (hw : E2hs.write (e2hsFormat c) ⟨versionEntry, ts, b⟩ = .ok bs)
    (hi : b.indices.length = ts.length) (hc : ts.length < b.count.toNat) :
    E2hs.deserialize (e2hsFormat c) bs = .panic := by
  obtain ⟨hn, hs, rfl⟩ := (C39_e2hs_write c ts b bs).mp hw
  have hlaw := e2hs_lawful c hh hb hr
  have hread := C38_roundtrip _ hs
  have hl := e2hsFile_length c ts b
  have he := e2hs_entries c ts b
  rw [he] at hread
  have hl2 : (versionEntry :: (ts.flatMap (e2hsFormat c).write ++ [b.toEntry])).length = ts.length * 3 + 2 := by
    rw [← he, List.length_map, hl]
  have hm : ts.length * 3 + 2 = e2hsEntryCount := by rw [e2hsEntryCount]; omega
  have hlast : (versionEntry :: (ts.flatMap (e2hsFormat c).write ++ [b.toEntry])).getLast? = some b.toEntry := by
    rw [← List.cons_append, List.getLast?_concat]
  have hidx : readIndex [65552] b.toEntry = .ok b := by
    apply readIndex_toEntry
    · rw [hi, hn]; decide
    · rw [hi]; omega
  have htup := readTuples_over hlaw ts [b.toEntry] (show 1 < 3 by decide) _ hc
  simp only [E2hs.deserialize, hread, Res.bind, hl2, hm, ne_eq, not_true_eq_false, if_false, hlast,
    readVersion_versionEntry, hidx, htup]

/-! ## The streaming writer -/

/-- The writer of an epoch, given the blocks one after the other. -/
def writeBlocks {H B R : Type} (c : E2hsCodecs H B R) (hash : E2hsTuple H B R → Id) (epoch : UInt64)
    (ts : List (E2hsTuple H B R)) : Res Writer :=
  (Writer.create epoch).bind fun w => w.appendAll (e2hsFormat c) hash ts

theorem e2hs_lawful_write {H B R : Type} (c : E2hsCodecs H B R) (hash : E2hsTuple H B R → Id) (epoch : UInt64)
    (ts : List (E2hsTuple H B R)) (w : Writer) (hh : Codec.Lossless c.headerWithProof)
    (hb : Codec.Lossless c.body) (hr : Codec.Lossless c.receipts) :
    writeBlocks c hash epoch ts = .ok w ↔
      Short (ts.flatMap (e2hsRecords c)) ∧ w = stateAfter (e2hsRecords c) hash epoch ts := by
  rw [writeBlocks, create_eq (e2hsRecords c) hash epoch]
  exact appendAll_iff (e2hs_lawful c hh hb hr) hash epoch ts [] w

/-- After any number of blocks the file on disk has the version record and the blocks written so far, and
the `i`-th offset kept for the index is where the records of block `i` start: reading from there gives
block `i` and everything after it. -/
theorem C39_writer_offsets {H B R : Type} (c : E2hsCodecs H B R) (hh : Codec.Lossless c.headerWithProof)
    (hb : Codec.Lossless c.body) (hr : Codec.Lossless c.receipts)
    (hash : E2hsTuple H B R → Id) (epoch : UInt64) (ts : List (E2hsTuple H B R)) (w : Writer)
    (h : writeBlocks c hash epoch ts = .ok w) (hl : w.written.length < 2 ^ 64) :
    w.written = fileBytes ((0x6532, []) :: ts.flatMap (e2hsRecords c)) ∧
    w.indices.length = ts.length ∧
    ∀ i o, w.indices[i]? = some o →
      o.toNat ≤ w.written.length ∧
      w.written.drop o.toNat = fileBytes ((ts.drop i).flatMap (e2hsRecords c)) ∧
      deserialize (w.written.drop o.toNat) =
        .ok (((ts.drop i).flatMap (e2hsRecords c)).map fun r => Entry.new r.1 r.2) := by
  obtain ⟨hs, rfl⟩ := (e2hs_lawful_write c hash epoch ts w hh hb hr).mp h
  refine ⟨rfl, by simp [stateAfter], fun i o hi => ?_⟩
  have hsplit : (stateAfter (e2hsRecords c) hash epoch ts).written =
      fileBytes ((versionType, []) :: (ts.take i).flatMap (e2hsRecords c)) ++
        fileBytes ((ts.drop i).flatMap (e2hsRecords c)) := by
    rw [← fileBytes_append, List.cons_append, ← List.flatMap_append, List.take_append_drop]
    rfl
  have ho : o.toNat = (fileBytes ((versionType, []) :: (ts.take i).flatMap (e2hsRecords c))).length := by
    simp only [stateAfter, List.getElem?_map] at hi
    cases hr : (List.range ts.length)[i]? with
    | none => rw [hr] at hi; cases hi
    | some j =>
      rw [hr] at hi
      obtain ⟨hj, hj'⟩ := List.getElem?_eq_some_iff.mp hr
      rw [List.getElem_range] at hj'
      subst hj'
      cases hi
      apply UInt64.toNat_ofNat_of_lt'
      rw [hsplit, List.length_append] at hl
      show _ < 2 ^ 64
      omega
  have hd : (stateAfter (e2hsRecords c) hash epoch ts).written.drop o.toNat =
      fileBytes ((ts.drop i).flatMap (e2hsRecords c)) := by
    rw [hsplit, ho, List.drop_left' rfl]
  refine ⟨by rw [hsplit, ho, List.length_append]; omega, hd, ?_⟩
  rw [hd]
  apply C38_roundtrip
  intro r hr
  apply hs r
  obtain ⟨t, ht, hrt⟩ := List.mem_flatMap.mp hr
  exact List.mem_flatMap.mpr ⟨t, List.mem_of_mem_drop ht, hrt⟩

/-- The finished file: only 8192 blocks make one; reading it gives the blocks back in order, the first block
number is that of the epoch, and each offset of its index is where its block starts in the finished file. -/
theorem C39_writer_finish {H B R : Type} (c : E2hsCodecs H B R) (hh : Codec.Lossless c.headerWithProof)
    (hb : Codec.Lossless c.body) (hr : Codec.Lossless c.receipts)
    (hash : E2hsTuple H B R → Id) (epoch : UInt64) (ts : List (E2hsTuple H B R)) (w : Writer)
    (h : writeBlocks c hash epoch ts = .ok w) (hl : w.written.length < 2 ^ 64)
    (he : epoch.toNat * 8192 < 2 ^ 64) :
    (ts.length ≠ 8192 → w.finish = .err) ∧
    (∀ last, ts.length = 8192 → ts.getLast? = some last → ∃ bytes b,
      w.finish = .ok (bytes, epoch, (hash last).bytes.take 4) ∧
      E2hs.deserialize (e2hsFormat c) bytes = .ok ⟨versionEntry, ts, b⟩ ∧
      b.startingNumber.toNat = epoch.toNat * 8192 ∧ b.count = 8192 ∧ b.indices.length = 8192 ∧
      E2hs.epoch (⟨versionEntry, ts, b⟩ : E2hs (E2hsTuple H B R)) = epoch.toNat ∧
      ∀ i o, b.indices[i]? = some o →
        deserialize (bytes.drop o.toNat) =
          .ok (((ts.drop i).flatMap (e2hsRecords c)).map (fun r => Entry.new r.1 r.2) ++ [b.toEntry])) := by
  have hoff := C39_writer_offsets c hh hb hr hash epoch ts w h hl
  obtain ⟨hs, rfl⟩ := (e2hs_lawful_write c hash epoch ts w hh hb hr).mp h
  have hil : (stateAfter (e2hsRecords c) hash epoch ts).indices.length = ts.length := by simp [stateAfter]
  have hep : (stateAfter (e2hsRecords c) hash epoch ts).epoch = epoch := rfl
  constructor
  · intro hne
    rw [Writer.finish, if_pos (by rw [hil]; exact hne)]
  · intro last hn hlast
    have hlast' : ts[8191]? = some last := by
      rw [List.getLast?_eq_getElem?, hn] at hlast
      exact hlast
    let b : BlockIndex := ⟨UInt64.ofNat (epoch.toNat * 8192),
      (stateAfter (e2hsRecords c) hash epoch ts).indices, 8192⟩
    have hbl : b.indices.length = 8192 := by rw [← hn]; exact hil
    have hshort : (indexRecord b).2.length + 8 < 2 ^ 32 := by
      have : (indexRecord b).2.length = 65552 := by
        simp only [indexRecord, List.length_append, toLe_length, flatMap_length8, hbl]
      omega
    have hstart : b.startingNumber.toNat = epoch.toNat * 8192 :=
      UInt64.toNat_ofNat_of_lt' (by show _ < 2 ^ 64; exact he)
    have happ : appendEntry (stateAfter (e2hsRecords c) hash epoch ts).written b.toEntry =
        .ok (fileBytes (e2hsFile c ts b)) := by
      rw [indexRecord_toEntry, appendEntry_iff]
      refine ⟨hshort, ?_⟩
      rw [e2hsFile, fileBytes_append]
      simp [fileBytes, stateAfter, versionType]
    have hsf : Short (e2hsFile c ts b) := by
      intro r hr
      simp only [e2hsFile, List.cons_append, List.mem_cons, List.mem_append, List.not_mem_nil, or_false] at hr
      rcases hr with rfl | hr | rfl
      · decide
      · exact hs r hr
      · exact hshort
    have hw := (C39_e2hs_write c ts b _).mpr ⟨hn, hsf, rfl⟩
    have hrt := (C39_e2hs_roundtrip c hh hb hr ts b _ hw (by rw [hbl, hn])
      (by rw [hn]; rfl)).1
    refine ⟨_, b, ?_, hrt, hstart, rfl, hbl, ?_, ?_⟩
    · have hlh : (stateAfter (e2hsRecords c) hash epoch ts).lastHash = some (hash last) := by
        simp only [stateAfter, hlast']; rfl
      rw [Writer.finish, if_neg (by rw [hil, blocksPerE2hs]; simpa using hn), hep, if_neg (by omega)]
      have : appendEntry (stateAfter (e2hsRecords c) hash epoch ts).written
          (BlockIndex.toEntry ⟨UInt64.ofNat (epoch.toNat * 8192),
            (stateAfter (e2hsRecords c) hash epoch ts).indices, 8192⟩) =
          .ok (fileBytes (e2hsFile c ts b)) := happ
      rw [this, hlh]
      rfl
    · show b.startingNumber.toNat / 8192 = _
      rw [hstart]; omega
    · intro i o hi
      obtain ⟨ho1, ho2, -⟩ := hoff.2.2 i o hi
      have hfb : fileBytes (e2hsFile c ts b) =
          (stateAfter (e2hsRecords c) hash epoch ts).written ++ fileBytes [indexRecord b] := by
        rw [e2hsFile, fileBytes_append]; rfl
      rw [hfb, List.drop_append_of_le_length ho1, ho2, ← fileBytes_append, C38_roundtrip, indexRecord_toEntry,
        List.map_append]
      · rfl
      · intro r hr
        rcases List.mem_append.mp hr with hr | hr
        · apply hs r
          obtain ⟨t, ht, hrt⟩ := List.mem_flatMap.mp hr
          exact List.mem_flatMap.mpr ⟨t, List.mem_of_mem_drop ht, hrt⟩
        · simp only [List.mem_cons, List.not_mem_nil, or_false] at hr
          rw [hr]; exact hshort

/-- The writer fails only on a record of 4 GiB or more. -/
theorem C39_writer_ok {H B R : Type} (c : E2hsCodecs H B R) (hh : Codec.Lossless c.headerWithProof)
    (hb : Codec.Lossless c.body) (hr : Codec.Lossless c.receipts)
    (hash : E2hsTuple H B R → Id) (epoch : UInt64) (ts : List (E2hsTuple H B R)) :
    (∃ w, writeBlocks c hash epoch ts = .ok w) ↔ Short (ts.flatMap (e2hsRecords c)) :=
  ⟨fun ⟨w, h⟩ => ((e2hs_lawful_write c hash epoch ts w hh hb hr).mp h).1,
    fun h => ⟨_, (e2hs_lawful_write c hash epoch ts _ hh hb hr).mpr ⟨h, rfl⟩⟩⟩

/-! ## Concrete cases -/

/-- Byte strings as they are. -/
def rawCodec : Codec Bytes := ⟨id, some⟩
def rawE2hs : E2hsCodecs Bytes Bytes Bytes := ⟨rawCodec, rawCodec, rawCodec⟩
def rawEra1 : Era1Codecs Bytes Bytes Bytes := ⟨rawCodec, rawCodec, rawCodec⟩

theorem raw_lossless : Codec.Lossless rawCodec := fun _ => rfl

theorem short_replicate (n : Nat) (t : E2hsTuple Bytes Bytes Bytes) (h : Short (e2hsRecords rawE2hs t)) :
    Short ((List.replicate n t).flatMap (e2hsRecords rawE2hs)) := by
  intro r hr
  obtain ⟨t', ht, hrt⟩ := List.mem_flatMap.mp hr
  rw [List.eq_of_mem_replicate ht] at hrt
  exact h r hrt

-- a full epoch of blocks can be written
example : ∃ w, writeBlocks rawE2hs (fun _ => 0) 7 (List.replicate 8192 ⟨[1], [2, 3], []⟩) = .ok w :=
  (C39_writer_ok rawE2hs raw_lossless raw_lossless raw_lossless _ _ _).mpr
    (short_replicate _ _ (by unfold Short; decide))
-- an index with offsets and count as the theorems ask for, and one with a wrong count, are writable
example (n : UInt64) : ∃ bs, E2hs.write (e2hsFormat rawE2hs)
    ⟨versionEntry, List.replicate 8192 ⟨[1], [2, 3], []⟩, ⟨0, List.replicate 8192 8, n⟩⟩ = .ok bs := by
  refine ⟨_, (C39_e2hs_write rawE2hs _ _ _).mpr ⟨List.length_replicate, ?_, rfl⟩⟩
  intro r hr
  simp only [e2hsFile, List.cons_append, List.mem_cons, List.mem_append, List.not_mem_nil, or_false] at hr
  rcases hr with rfl | hr | rfl
  · decide
  · exact short_replicate _ ⟨[1], [2, 3], []⟩ (by unfold Short; decide) r hr
  · simp only [indexRecord, List.length_append, toLe_length, flatMap_length8, List.length_replicate]
    decide
example (n : UInt64) : ∃ bs, Era1.write (era1Format rawEra1)
    ⟨versionEntry, List.replicate 5362 ⟨[1], [2, 3], [], 17⟩, 5, ⟨0, List.replicate 5362 8, n⟩⟩ = .ok bs := by
  refine ⟨_, (C39_era1_write rawEra1 _ _ _ _).mpr ⟨Or.inr List.length_replicate, ?_, rfl⟩⟩
  intro r hr
  simp only [era1File, List.cons_append, List.mem_cons, List.mem_append, List.not_mem_nil, or_false] at hr
  rcases hr with rfl | hr | rfl | rfl
  · decide
  · obtain ⟨t', ht, hrt⟩ := List.mem_flatMap.mp hr
    rw [List.eq_of_mem_replicate ht] at hrt
    have : Short (era1Records rawEra1 ⟨[1], [2, 3], [], 17⟩) := by unfold Short; decide
    exact this r hrt
  · decide
  · simp only [indexRecord, List.length_append, toLe_length, flatMap_length8, List.length_replicate]
    decide
-- two blocks: offsets 8 and 8 + 9 + 10 + 8
example : (match writeBlocks rawE2hs (fun _ => 0) 7 [⟨[1], [2, 3], []⟩, ⟨[], [], []⟩] with
    | .ok w => w.indices | _ => []) = [8, 35] := by decide +kernel

end Verif.Props
