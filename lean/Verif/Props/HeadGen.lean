import Verif.Lemmas.HeadGenComplete
import Verif.Props.E2hsGen

/-! # C72: the head generator keeps a bucket of E2HS files -/

namespace Verif.Props
open Verif Verif.HeadGen Verif.HeadSpec Verif.E2hsSpec
open Verif.E2store (Res)
open Verif.E2hsGen (Inputs Signed Full Batch bind_ok map_ok)
open Verif.HeaderValidator (Summary HeaderProof containerRoot)
open Verif.Archive (Codec)

variable {Tx Rc Wd : Type}

attribute [local irreducible] targetChunk divCeil upload maxBackfill

/-- Whatever nodes and the store answer and whenever the generator is started or killed: the bucket stays without a gap,
no key is lost, and whatever was put into it is a complete file of its index, with valid proofs. -/
theorem C72_bucket (i : Inputs Tx Rc Wd) (hh : Codec.Lossless i.codecs.headerWithProof)
    (hb : Codec.Lossless i.codecs.body) (hr : Codec.Lossless i.codecs.receipts) (bucket : Bucket) (lo hi : Nat)
    (hold : Holds bucket lo hi) (h64 : hi ≤ 2 ^ 64) (es : List (Event Rc Wd)) (hf : Faithful i ⟨bucket, none⟩ es) :
    (∃ hi', hi ≤ hi' ∧ Holds (Sys.run i ⟨bucket, none⟩ es).bucket lo hi') ∧
    (∀ e ∈ bucket, ∃ e' ∈ (Sys.run i ⟨bucket, none⟩ es).bucket, e'.1 = e.1) ∧
    ∀ e ∈ (Sys.run i ⟨bucket, none⟩ es).bucket, e ∈ bucket ∨ ∃ k, GoodFile i (Served es) k e.1 e.2 := by
  obtain ⟨hi', h1, h2⟩ := run_inv i hh hb hr (Served es) bucket lo es hi ⟨bucket, none⟩
    ⟨hold, h64, (fun b hb => nomatch hb), fun e he => .inl he, fun e he => ⟨e, he, rfl⟩⟩
    (fun e he node hn slot st hs => ⟨e, he, node, hn, slot, st, hs, rfl⟩) hf
  exact ⟨⟨hi', h1, h2.holds⟩, h2.kept, h2.files⟩

theorem findFrom_where (node : Node Rc Wd) (left slot : Nat) (x : Signed Wd) (h : findFrom node left slot = .ok x) :
    ∃ s, slot ≤ s ∧ s ≤ slot + left ∧ node.block s = some x := by
  induction left generalizing slot with
  | zero =>
    unfold findFrom at h
    split at h
    · next y hy => cases h; exact ⟨slot, Nat.le_refl _, Nat.le_refl _, (electra_some _ _ hy).1⟩
    · cases h
  | succ k ih =>
    unfold findFrom at h
    split at h
    · next y hy => cases h; exact ⟨slot, Nat.le_refl _, by omega, (electra_some _ _ hy).1⟩
    · simp only at h
      split at h
      · cases h
      · obtain ⟨s, h1, h2, h3⟩ := ih _ h
        exact ⟨s, by omega, by omega, h3⟩

/-- A file is put into the bucket only when all its blocks are before the block with which the latest finalized period
starts, which is one in the first six slots of the period. -/
theorem C72_provable (i : Inputs Tx Rc Wd) (s : Sys) (e : Event Rc Wd) (h : (s.step i e).bucket ≠ s.bucket) :
    ∃ fuel node nodes s3 b f x slot, e = .tick fuel node nodes s3 ∧ s.gen = some b ∧ node.finalized = some f ∧
      f.beacon.slot.toNat / 8192 * 8192 ≤ slot ∧ slot ≤ f.beacon.slot.toNat / 8192 * 8192 + 5 ∧ node.block slot = some x ∧
      b.index * 8192 + 8192 ≤ x.number := by
  cases e with
  | kill => exact absurd rfl h
  | start pages node =>
    exfalso
    apply h
    unfold Sys.step
    simp only
    split <;> rfl
  | tick fuel node nodes s3 =>
    cases hg : s.gen with
    | none =>
      exfalso
      apply h
      unfold Sys.step
      rw [hg]
    | some b =>
      have hstep : s.step i (.tick fuel node nodes s3) =
          ⟨(HeadGen.tick i fuel node nodes s3 b s.bucket).2, (HeadGen.tick i fuel node nodes s3 b s.bucket).1⟩ := by
        unfold Sys.step
        rw [hg]
      rw [hstep] at h
      refine ⟨fuel, node, nodes, s3, b, ?_⟩
      unfold HeadGen.tick amount firstFinalized at h
      cases hx : electra node.finalized with
      | none => rw [hx] at h; exact absurd rfl h
      | some f =>
        rw [hx] at h
        simp only at h
        cases hy : findFirst node (firstSlot f.beacon.slot.toNat) with
        | err => rw [hy] at h; exact absurd rfl h
        | panic => rw [hy] at h; exact absurd rfl h
        | ok x =>
          rw [hy] at h
          simp only [Res.bind] at h
          obtain ⟨slot, s1, s2, s3'⟩ := findFrom_where node 5 _ x hy
          refine ⟨f, x, slot, rfl, rfl, (electra_some _ _ hx).1, s1, s2, s3', ?_⟩
          by_cases hlt : x.number < b.index * 8192
          · rw [if_pos hlt] at h
            exact absurd rfl h
          · rw [if_neg hlt] at h
            simp only at h
            by_cases ha : x.number - b.index * 8192 ≥ 8192
            · omega
            · rw [if_neg ha] at h
              exact absurd rfl h

/-! ## Uploads -/

theorem chunksOf_sizes (size fuel : Nat) (l : Bytes) (hs : 0 < size) :
    (∀ c ∈ chunksOf size fuel l, 0 < c.length ∧ c.length ≤ size) ∧ (∀ c ∈ (chunksOf size fuel l).dropLast, c.length = size) ∧
    (chunksOf size fuel l).length * size < l.length + size := by
  induction fuel generalizing l with
  | zero => exact ⟨(fun c hc => nomatch hc), (fun c hc => nomatch hc), by simp only [chunksOf, List.length_nil]; omega⟩
  | succ k ih =>
    unfold chunksOf
    split
    · next h =>
      refine ⟨(fun c hc => nomatch hc), (fun c hc => nomatch hc), ?_⟩
      simp at h
      subst h
      simpa using hs
    · next h =>
      have hpos : 0 < l.length := by
        cases l with
        | nil => simp at h
        | cons => simp
      obtain ⟨h1, h2, h3⟩ := ih (l.drop size)
      refine ⟨?_, ?_, ?_⟩
      · intro c hc
        rcases List.mem_cons.mp hc with rfl | hc
        · rw [List.length_take]; omega
        · exact h1 c hc
      · intro c hc
        cases hcs : chunksOf size k (l.drop size) with
        | nil => rw [hcs] at hc; cases hc
        | cons d ds =>
          rw [hcs, List.dropLast_cons_cons] at hc
          rcases List.mem_cons.mp hc with rfl | hc
          · rw [List.length_take]
            have hne : l.drop size ≠ [] := by
              intro hd
              rw [hd] at hcs
              cases k with
              | zero => cases hcs
              | succ k => unfold chunksOf at hcs; simp at hcs
            have := List.length_pos_iff.mpr hne
            rw [List.length_drop] at this
            omega
          · exact h2 c (by rw [hcs]; exact hc)
      · rw [List.length_cons, Nat.succ_mul]
        rw [List.length_drop] at h3
        by_cases hle : size ≤ l.length
        · omega
        · have : (chunksOf size k (l.drop size)).length = 0 := by
            rw [List.drop_eq_nil_of_le (by omega)]
            cases k with
            | zero => rfl
            | succ k => unfold chunksOf; simp
          rw [this]
          omega

theorem target_eq : targetChunk = 100 * 1024 * 1024 := by unfold targetChunk; rfl

/-- The parts of an upload: numbered from 1 on, none is empty or larger than 100 MiB, all but the last have the same size,
which is more than 50 MiB, and together they are the file. There are no more of them than needed. -/
theorem C72_parts (data : Bytes) (h : data ≠ []) : ∃ ps, parts data = some ps ∧
    ps.map (fun p => p.1) = List.range' 1 ps.length ∧ ps.flatMap (fun p => p.2) = data ∧
    (∀ p ∈ ps, 0 < p.2.length ∧ p.2.length ≤ 100 * 1024 * 1024) ∧
    (∃ size, ∀ p ∈ ps.dropLast, p.2.length = size ∧ 50 * 1024 * 1024 ≤ size) ∧
    (ps.length - 1) * (100 * 1024 * 1024) < data.length := by
  obtain ⟨count, size, h1, h2, h3, h4, h5, h6, h7⟩ := parts_spec data h
  rw [target_eq] at h3 h4
  obtain ⟨s1, s2, s3⟩ := chunksOf_sizes size data.length data h2
  obtain ⟨n1, n2⟩ := numbered (chunksOf size data.length data) 0
  have hflat := chunksOf_flatten size data.length data h2 (Nat.le_refl _)
  generalize chunksOf size data.length data = cs at *
  have hlen : (cs.zipIdx.map fun p => (p.2 + 1, p.1)).length = cs.length := by simp
  have hmem : ∀ p ∈ cs.zipIdx.map (fun p => (p.2 + 1, p.1)), p.2 ∈ cs := by
    intro p hp
    obtain ⟨q, hq, rfl⟩ := List.mem_map.mp hp
    exact List.fst_mem_of_mem_zipIdx hq
  have hdrop : ∀ p ∈ (cs.zipIdx.map (fun p => (p.2 + 1, p.1))).dropLast, p.2 ∈ cs.dropLast := by
    intro p hp
    have hm : (cs.zipIdx.map (fun p => (p.2 + 1, p.1))).map (fun p => p.2) = cs := by
      rw [List.map_map]
      show cs.zipIdx.map Prod.fst = cs
      exact List.zipIdx_map_fst 0 cs
    have : p.2 ∈ (cs.zipIdx.map (fun p => (p.2 + 1, p.1))).dropLast.map (fun p => p.2) := List.mem_map.mpr ⟨p, hp, rfl⟩
    rw [List.map_dropLast, hm] at this
    exact this
  have hsize : size ≤ 100 * 1024 * 1024 := by
    refine Classical.byContradiction fun hc => ?_
    have : count * (100 * 1024 * 1024) ≤ (size - 1) * count := by
      rw [Nat.mul_comm]
      exact Nat.mul_le_mul_right _ (by omega)
    omega
  have hcount : cs.length ≤ count := by
    refine Classical.byContradiction fun hc => ?_
    have : (count + 1) * size ≤ cs.length * size := Nat.mul_le_mul_right _ (by omega)
    rw [Nat.succ_mul, Nat.mul_comm count size] at this
    omega
  refine ⟨_, h7, by rw [n1, hlen], by rw [n2, hflat], fun p hp => ?_, ⟨size, fun p hp => ?_⟩, ?_⟩
  · obtain ⟨a, b⟩ := s1 _ (hmem p hp)
    exact ⟨a, by omega⟩
  · refine ⟨s2 _ (hdrop p hp), ?_⟩
    have hcd := hdrop p hp
    have hl2 : 2 ≤ cs.length := by
      cases cs with
      | nil => cases hcd
      | cons c cs =>
        cases cs with
        | nil => cases hcd
        | cons => simp
    have h2c : 2 ≤ count := by omega
    refine Classical.byContradiction fun hc => ?_
    have e1 : size * count ≤ (50 * 1024 * 1024) * count := Nat.mul_le_mul_right _ (by omega)
    have e2 : (count - 1) * (100 * 1024 * 1024) = count * (100 * 1024 * 1024) - 100 * 1024 * 1024 := by
      rw [Nat.sub_mul, Nat.one_mul]
    omega
  · rw [hlen]
    exact Nat.lt_of_le_of_lt (Nat.mul_le_mul_right _ (Nat.sub_le_sub_right hcount 1)) h4

/-- An upload is all or nothing: the bucket afterwards has the file under its key, with what was there under other keys, or
is what it was; it has the file when the upload succeeds. -/
theorem C72_upload (s : S3) (bucket : Bucket) (key : List Char) (data : Bytes) (h : data ≠ []) :
    (S3.Works s → (upload s bucket key data).1 = .ok ()) ∧
    ((upload s bucket key data).1 = .ok () → (key, data) ∈ (upload s bucket key data).2) ∧
    ((upload s bucket key data).2 = bucket ∧ (upload s bucket key data).1 = .err ∨
      ∀ e, e ∈ (upload s bucket key data).2 ↔ e = (key, data) ∨ (e ∈ bucket ∧ e.1 ≠ key)) := by
  refine ⟨fun hs => by rw [upload_works s bucket key data h hs], ?_, ?_⟩
  · rcases upload_object s bucket key data h with hu | hu | hu <;> rw [hu] <;> intro hok
    · exact (put_mem bucket key data (key, data)).mpr (.inl rfl)
    · cases hok
    · cases hok
  · rcases upload_object s bucket key data h with hu | hu | hu <;> rw [hu]
    · exact .inr (put_mem bucket key data)
    · exact .inr (put_mem bucket key data)
    · exact .inl ⟨rfl, rfl⟩

/-- Uploading an empty file aborts: the size of parts is computed with a division by their number, 0. -/
theorem C72_upload_empty (s : S3) (bucket : Bucket) (key : List Char) : upload s bucket key [] = (.panic, bucket) := by
  have h1 : parts [] = none := by
    have h0 : divCeil 0 targetChunk = some 0 := by
      unfold divCeil
      rw [target_eq, if_neg (by omega), Nat.div_eq_of_lt (by omega)]
    have h1 : divCeil 0 0 = none := by
      unfold divCeil
      rw [if_pos rfl]
    unfold parts
    rw [List.length_nil, h0, Option.bind_some, h1, Option.map_none]
  unfold upload
  rw [h1]
  rfl

/-! ## Names and restarts -/

/-- The name of a file states the index and the hash, and the index is read back from it. -/
theorem C72_names (index : Nat) (hash : Bytes) (h : hash.length = 4) :
    (∃ digits, NamedFor (fileName index hash) index
      (hash.flatMap fun x => [Hex.digit (x.toNat / 16), Hex.digit (x.toNat % 16)]) digits) ∧
    (index < 2 ^ 64 → extractIndex (fileName index hash) = some index) := by
  obtain ⟨digits, hn⟩ := fileName_named index hash h
  exact ⟨⟨digits, hn⟩, fun hi => extract_named _ _ ⟨_, _, hn⟩ hi⟩

theorem start_at (i : Inputs Tx Rc Wd) (pages : List Page) (key : List Char) (k : Nat) (h1 : lastFileName pages = .ok key)
    (h2 : KeyFor key k) (hk : k < 2 ^ 64) (node : Node Rc Wd) (b : Builder) (h : HeadGen.start i pages node = .ok b) :
    b.index = k + 1 := by
  unfold HeadGen.start at h
  obtain ⟨key', hk', h⟩ := bind_ok h
  rw [h1] at hk'
  cases hk'
  rw [extract_named key k h2 hk] at h
  simp only at h
  split at h
  · cases h
  · obtain ⟨b', hb, h⟩ := bind_ok h
    obtain ⟨n, _, h⟩ := bind_ok h
    split at h
    · cases h
      unfold newBuilder at hb
      split at hb
      · cases hb
      · obtain ⟨slot, _, rfl⟩ := map_ok hb
        rfl
    · cases h

/-- After a restart with a complete listing the generator goes on with the index after the last in the bucket. -/
theorem C72_resume (i : Inputs Tx Rc Wd) (bucket : Bucket) (lo m : Nat) (hold : Holds bucket lo (m + 1)) (hlo : lo ≤ m)
    (hm : m < 100000) (pages : List Page) (hl : Listing bucket pages) (node : Node Rc Wd) (b : Builder)
    (h : HeadGen.start i pages node = .ok b) : b.index = m + 1 := by
  obtain ⟨key, h1, h2⟩ := listing_last bucket pages lo m hold hlo hm hl
  exact start_at i pages key m h1 h2 (by omega) node b h

/-! ## Honest nodes -/

theorem indexAfter_cons (k first : Nat) (l : List Nat) : indexAfter k (first :: l) =
    indexAfter (if k * 8192 + 8192 ≤ first then k + 1 else k) l := rfl

theorem rounds_honest {i : Inputs Tx Rc Wd} {c : Chain Tx Rc Wd} {a : Beacons Wd} (hok : ChainOk i c) (hfits : Fits i c)
    (hp : i.net.parisBlock.toNat = 15537394) (hc : Canon i c a)
    (hh : Codec.Lossless i.codecs.headerWithProof) (hbd : Codec.Lossless i.codecs.body)
    (hr : Codec.Lossless i.codecs.receipts) (lo from' : Nat) (orig : Bucket) (rounds : List (Nat × Event Rc Wd)) :
    ∀ (bucket : Bucket) (b : Builder) (first : Nat), At i c a (b.index * 8192) b → b.index * 8192 ≤ first →
    lo ≤ b.index → from' ≤ b.index → Holds bucket lo b.index → (∀ e ∈ orig, e ∈ bucket) →
    (∀ j, from' ≤ j → j < b.index → ∃ e ∈ bucket, KeyFor e.1 j ∧ ChainFile i c j e.2) →
    (∀ r ∈ rounds, HonestRound i c a r.1 r.2) → (first :: rounds.map (fun r => r.1)).Pairwise (· ≤ ·) →
    ∃ b', (Sys.run i ⟨bucket, some b⟩ (rounds.map fun r => r.2)).gen = some b' ∧
      b'.index = indexAfter b.index (rounds.map fun r => r.1) ∧
      Holds (Sys.run i ⟨bucket, some b⟩ (rounds.map fun r => r.2)).bucket lo b'.index ∧
      (∀ e ∈ orig, e ∈ (Sys.run i ⟨bucket, some b⟩ (rounds.map fun r => r.2)).bucket) ∧
      ∀ j, from' ≤ j → j < b'.index →
        ∃ e ∈ (Sys.run i ⟨bucket, some b⟩ (rounds.map fun r => r.2)).bucket, KeyFor e.1 j ∧ ChainFile i c j e.2 := by
  induction rounds with
  | nil =>
    intro bucket b first hat hle hlo hfrom hold horig hfiles _ _
    exact ⟨b, rfl, rfl, hold, horig, hfiles⟩
  | cons r rounds ih =>
    intro bucket b first hat hle hlo hfrom hold horig hfiles hrs hmono
    obtain ⟨fuel, fin, node, nodes, s, he, hfuel, hn, hfst, hns, hs⟩ := hrs r List.mem_cons_self
    have hfr : first ≤ r.1 := (List.pairwise_cons.mp hmono).1 r.1 (by simp)
    have hmono' : (r.1 :: rounds.map (fun r => r.1)).Pairwise (· ≤ ·) := (List.pairwise_cons.mp hmono).2
    have htick := tick_honest hok hfits hp hc hh hbd hr fuel hfuel fin r.1 node nodes s hn hfst hns hs b bucket hat
      (Nat.le_trans hle hfr)
    have hrun : Sys.run i ⟨bucket, some b⟩ ((r :: rounds).map fun r => r.2) =
        Sys.run i ⟨(HeadGen.tick i fuel node nodes s b bucket).2, (HeadGen.tick i fuel node nodes s b bucket).1⟩
          (rounds.map fun r => r.2) := by
      rw [List.map_cons, he]
      rfl
    rw [hrun, List.map_cons, indexAfter_cons]
    by_cases hcov : b.index * 8192 + 8192 ≤ r.1
    · rw [if_pos hcov] at htick ⊢
      obtain ⟨b', key, bytes, ht, hi, hat', hkey, hfile⟩ := htick
      rw [ht]
      have hput := holds_put bucket lo b.index b.index key bytes hold hlo (Nat.le_refl _) hkey
      rw [Nat.max_eq_right (Nat.le_succ _)] at hput
      have hother : ∀ e ∈ bucket, e.1 ≠ key := by
        intro e he hek
        obtain ⟨k, _, k2, hk⟩ := hold.only e he
        rw [hek] at hk
        have := keyFor_unique _ _ _ hk hkey
        omega
      rw [← hi]
      refine ih (bucket.put key bytes) b' r.1 hat' (by rw [hi, Nat.succ_mul]; exact hcov) (by omega) (by omega)
        (by rw [hi]; exact hput) (fun e he => (put_mem ..).mpr (.inr ⟨horig e he, hother e (horig e he)⟩)) ?_
        (fun q hq => hrs q (List.mem_cons_of_mem _ hq)) hmono'
      intro j hj1 hj2
      by_cases hj : j = b.index
      · subst hj
        exact ⟨(key, bytes), (put_mem ..).mpr (.inl rfl), hkey, hfile⟩
      · obtain ⟨e, he, hek⟩ := hfiles j hj1 (by omega)
        exact ⟨e, (put_mem ..).mpr (.inr ⟨he, hother e he⟩), hek⟩
    · rw [if_neg hcov] at htick ⊢
      rw [htick]
      exact ih bucket b r.1 hat (Nat.le_trans hle hfr) hlo hfrom hold horig hfiles
        (fun q hq => hrs q (List.mem_cons_of_mem _ hq)) hmono'

/-- With honest nodes and a working store, the generator resumes after the last file and then keeps up: in every round in
which the blocks of the next file are all in finished periods, that file is added, with the blocks of the chain.
Missing: what the violations below are about. -/
theorem C72_complete_partial (i : Inputs Tx Rc Wd) (c : Chain Tx Rc Wd) (a : Beacons Wd) (hok : ChainOk i c) (hfits : Fits i c)
    (hp : i.net.parisBlock.toNat = 15537394) (hc : Canon i c a)
    (hh : Codec.Lossless i.codecs.headerWithProof) (hbd : Codec.Lossless i.codecs.body)
    (hr : Codec.Lossless i.codecs.receipts) (bucket : Bucket) (lo m : Nat) (hold : Holds bucket lo (m + 1)) (hlo : lo ≤ m)
    (hm : m < 100000) (pages : List Page) (hl : Listing bucket pages)
    (fin first : Nat) (node : Node Rc Wd) (hn : HonestNode i c a fin node) (hfst : FirstOfPeriod a fin first)
    (h1 : a.lo ≤ (m + 1) * 8192) (h2 : (m + 1) * 8192 < a.hi) (h3 : (m + 1) * 8192 ≤ first)
    (h4 : first < (m + 1) * 8192 + 648000) (rounds : List (Nat × Event Rc Wd))
    (hrs : ∀ r ∈ rounds, HonestRound i c a r.1 r.2) (hmono : (first :: rounds.map (fun r => r.1)).Pairwise (· ≤ ·)) :
    ∃ s b, Sys.run i ⟨bucket, none⟩ (.start pages node :: rounds.map fun r => r.2) = s ∧ s.gen = some b ∧
      b.index = indexAfter (m + 1) (rounds.map fun r => r.1) ∧ Holds s.bucket lo b.index ∧ (∀ e ∈ bucket, e ∈ s.bucket) ∧
      ∀ j, m + 1 ≤ j → j < b.index → ∃ e ∈ s.bucket, KeyFor e.1 j ∧ ChainFile i c j e.2 := by
  obtain ⟨key, hk1, hk2⟩ := listing_last bucket pages lo m hold hlo hm hl
  obtain ⟨b, hb1, hb2, hb3, _⟩ := start_honest hok hp hc hn.toFollows hfst pages key m hk1 hk2 h1 h2 h3
    (by unfold maxBackfill; exact h4)
  have hrun : Sys.run i ⟨bucket, none⟩ (.start pages node :: rounds.map fun r => r.2) =
      Sys.run i ⟨bucket, some b⟩ (rounds.map fun r => r.2) := by
    show Sys.run i (Sys.step i ⟨bucket, none⟩ (.start pages node)) _ = _
    have : Sys.step i ⟨bucket, none⟩ (.start pages node) = ⟨bucket, some b⟩ := by
      unfold Sys.step
      simp only
      rw [hb1]
    rw [this]
  rw [← hb2] at hold hb3 h3
  obtain ⟨b', r1, r2, r3, r4, r5⟩ := rounds_honest hok hfits hp hc hh hbd hr lo (m + 1) bucket rounds bucket b first hb3 h3
    (by omega) (by omega) hold (fun e he => he) (fun j _ _ => by omega) hrs hmono
  rw [hb2] at r2
  exact ⟨_, b', hrun, r1, r2, r3, r4, r5⟩

/-! ## What goes wrong -/

/-- Names are ordered as their indices only up to 99999: with the file of index 100000 the generator makes it again, and
again after every restart. -/
theorem C72_order_violated (i : Inputs Tx Rc Wd) : ∃ (bucket : Bucket) (pages : List Page), Holds bucket 99999 100001 ∧
    Listing bucket pages ∧ ∀ (node : Node Rc Wd) b, HeadGen.start i pages node = .ok b → b.index = 100000 := by
  obtain ⟨x, y, k1, k2, hlt⟩ : ∃ x y, KeyFor x 99999 ∧ KeyFor y 100000 ∧ y < x :=
    ⟨"mainnet-99999-00000000.e2hs".toList, "mainnet-100000-00000000.e2hs".toList,
      ⟨"00000000".toList, "99999".toList, by constructor <;> decide⟩,
      ⟨"00000000".toList, "100000".toList, by constructor <;> decide⟩, by decide⟩
  refine ⟨[(x, [1]), (y, [2])], [⟨[y, x], false, false⟩], ?_, ?_, ?_⟩
  · constructor
    · intro e he
      rcases List.mem_cons.mp he with rfl | he
      · exact ⟨99999, by omega, by omega, k1⟩
      · rw [List.mem_singleton] at he
        subst he
        exact ⟨100000, by omega, by omega, k2⟩
    · intro k h1 h2
      have : k = 99999 ∨ k = 100000 := by omega
      rcases this with rfl | rfl
      · exact ⟨_, List.mem_cons_self, k1⟩
      · exact ⟨_, List.mem_cons_of_mem _ List.mem_cons_self, k2⟩
  · constructor
    · intro k
      rw [List.flatMap_singleton]
      constructor
      · intro h
        rcases List.mem_cons.mp h with rfl | h
        · exact ⟨(k, [2]), by simp, rfl⟩
        · rw [List.mem_singleton] at h
          subst h
          exact ⟨(k, [1]), by simp, rfl⟩
      · rintro ⟨e, he, rfl⟩
        rcases List.mem_cons.mp he with rfl | he
        · simp
        · rw [List.mem_singleton] at he
          subst he
          simp
    · rw [List.flatMap_singleton, List.pairwise_cons]
      refine ⟨fun z hz => ?_, List.pairwise_singleton _ _⟩
      rw [List.mem_singleton] at hz
      subst hz
      exact hlt
    · intro p hp
      cases hp
    · intro p hp
      cases hp
      rfl
  · intro node b h
    exact start_at i _ x 99999 rfl k1 (by omega) node b h

/-- A request for a later page that fails is taken for the end of the listing: the generator then goes on with an index
that the bucket already has. -/
theorem C72_listing_violated (i : Inputs Tx Rc Wd) (bucket : Bucket) (lo m : Nat) (hold : Holds bucket lo (m + 1))
    (hm : m < 2 ^ 64) (p : Page) (ps : List Page) (hl : Listing bucket (p :: ps)) (hps : ps ≠ []) (key : List Char) (k : Nat)
    (hk : p.keys.getLast? = some key) (hkey : KeyFor key k) (hlt : k < m) (node : Node Rc Wd) (b : Builder)
    (h : HeadGen.start i [p] node = .ok b) : b.index = k + 1 ∧ ∃ e ∈ bucket, KeyFor e.1 b.index := by
  have hp := hl.more p (by
    cases ps with
    | nil => exact absurd rfl hps
    | cons q ps => rw [List.dropLast_cons_cons]; exact List.mem_cons_self)
  have hlast : lastFileName [p] = .ok key := by
    unfold lastFileName lastKey
    simp only [hp.1, hp.2, if_true, hk, lastKey]
    rfl
  have hb := start_at i [p] key k hlast hkey (by omega) node b h
  refine ⟨hb, ?_⟩
  obtain ⟨e, he, hek⟩ := (hl.all key).mp (by
    rw [List.flatMap_cons]; exact List.mem_append_left _ (List.mem_of_getLast? hk))
  obtain ⟨j, j1, j2, hj⟩ := hold.only e he
  rw [hek] at hj
  have := keyFor_unique _ _ _ hkey hj
  obtain ⟨e', he', hk'⟩ := hold.all (k + 1) (by omega) (by omega)
  exact ⟨e', he', by rw [hb]; exact hk'⟩

/-- When the node is behind the bucket, the generator aborts instead of waiting. -/
theorem C72_behind_violated (i : Inputs Tx Rc Wd) (c : Chain Tx Rc Wd) (a : Beacons Wd) (hc : Canon i c a)
    (fin first : Nat) (node : Node Rc Wd) (hn : HonestNode i c a fin node) (hfst : FirstOfPeriod a fin first) (index : Nat)
    (h : first < index * 8192) : amount node index = .panic ∧
      ∀ fuel nodes s b bucket, b.index = index → HeadGen.tick i fuel node nodes s b bucket = (none, bucket) := by
  have h1 := hfst.1
  have h2 := hfst.2.1
  have h3 := hn.range
  have ha : amount node index = .panic := by
    unfold amount
    rw [firstFinalized_honest hc hn.toFollows hfst]
    simp only [Res.bind]
    rw [hc.number first (by omega) (by omega), if_pos h]
  refine ⟨ha, ?_⟩
  rintro fuel nodes s b bucket rfl
  unfold HeadGen.tick
  rw [ha]

/-- A node that answers requests for states always with an earlier one is asked for more than five: for one after the
other, up to the end of the numbers. -/
theorem C72_endless_violated (node : Node Rc Wd) (slot fuel : Nat) (hf : slot + 8192 + fuel < 2 ^ 64)
    (h : ∀ s, slot ≤ s → ∃ st, node.state s = some st ∧ st.slot < s) : stateForNext node fuel slot = none := by
  have key : ∀ (fuel s tries : Nat), slot ≤ s → s + fuel < 2 ^ 64 → stateFrom node fuel s tries = none := by
    intro fuel
    induction fuel with
    | zero => intro s tries _ _; rfl
    | succ k ih =>
      intro s tries h1 h2
      obtain ⟨st, h3, h4⟩ := h s h1
      unfold stateFrom
      rw [h3]
      simp only
      rw [if_pos h4, if_neg (by omega)]
      exact ih _ _ (by omega) (by omega)
  unfold stateForNext
  rw [if_neg (by omega)]
  have e : firstSlot (slot + 8192) ≤ slot + 8192 := by
    unfold firstSlot
    exact Nat.div_mul_le_self _ _
  have e' : slot ≤ firstSlot (slot + 8192) := by
    unfold firstSlot
    have := Nat.div_add_mod (slot + 8192) 8192
    have := Nat.mod_lt (slot + 8192) (show 0 < 8192 by omega)
    omega
  exact key _ _ _ e' (by omega)

theorem updateAnchors_without (node : Node Rc Wd) (slot : Nat) (st : BState)
    (h1 : 759 * 8192 ≤ slot) (h2 : slot + 16384 < 2 ^ 64) (hst : st.slot = (slot / 8192 + 1) * 8192 + 1) (fuel : Nat)
    (b b' : Builder) (hb : b.anchor = 0)
    (h : updateAnchors (without node ((slot / 8192 + 1) * 8192) st) fuel b slot = some (.ok b')) :
    b'.batch = st.batch ∧ b'.summaries = st.summaries ∧ b'.cache = [] := by
  have hidx : ChainHead.historicalSummaryIndex slot = some (slot / 8192 - 758) := by
    unfold ChainHead.historicalSummaryIndex ChainHead.capellaSlot
    rw [if_neg (by omega)]
    exact congrArg some (by omega)
  unfold updateAnchors at h
  rw [hidx] at h
  simp only at h
  rw [if_neg (by omega)] at h
  obtain ⟨st', hs, h⟩ := run_ok h
  cases h
  have : st' = st := by
    unfold stateForNext at hs
    rw [if_neg (by omega)] at hs
    have e : firstSlot (slot + 8192) = (slot / 8192 + 1) * 8192 := by
      unfold firstSlot
      rw [Nat.add_div_right _ (by omega)]
    rw [e] at hs
    cases fuel with
    | zero => cases hs
    | succ k =>
      unfold stateFrom at hs
      have e0 : (without node ((slot / 8192 + 1) * 8192) st).state ((slot / 8192 + 1) * 8192) = none := by
        unfold without
        simp only
        rw [if_pos trivial]
      rw [e0] at hs
      simp only at hs
      rw [if_neg (by omega), if_neg (by omega)] at hs
      cases k with
      | zero => cases hs
      | succ k =>
        unfold stateFrom at hs
        have e1 : (without node ((slot / 8192 + 1) * 8192) st).state ((slot / 8192 + 1) * 8192 + 1) = some st := by
          unfold without
          simp only
          rw [if_neg (by omega), if_pos trivial]
        rw [e1] at hs
        simp only at hs
        rw [if_neg (by omega), if_neg (by omega)] at hs
        cases hs
        rfl
  subst this
  exact ⟨rfl, rfl, rfl⟩

theorem electra_proof (H : Id → Id → Id) (net : HeaderValidator.Net) (t : HeaderValidator.Trusted) (s : List Summary)
    (hd : HeaderValidator.Header) (slot : UInt64) (batch : Batch) (fork : HeaderValidator.Fork) (tree : HeaderValidator.Block fork)
    (p : HeaderProof) (hf : fork = .electra) (hlate : 759 * 8192 ≤ slot.toNat)
    (hroot : batch.blockRoots.toList[slot.toNat % 8192]? = some (tree.root H))
    (hp : E2hsGen.proofFor H slot batch fork tree = some p)
    (hv : (HeaderValidator.validate H net t [] (fun _ => some s) hd p).1 = .accept) :
    ∃ sm, s[slot.toNat / 8192 - 758]? = some sm ∧ sm.blockSummaryRoot = containerRoot H batch.blockRoots.toList := by
  subst hf
  simp only [E2hsGen.proofFor, Option.map_eq_some_iff] at hp
  obtain ⟨q, hq, rfl⟩ := hp
  unfold HeaderValidator.buildDenebProof at hq
  rw [Option.bind_eq_bind, Option.bind_eq_some_iff] at hq
  obtain ⟨bp, hbp, hq⟩ := hq
  rw [Option.bind_eq_bind, Option.bind_eq_some_iff] at hq
  obtain ⟨ep, hep, hq⟩ := hq
  cases hq
  obtain ⟨bl, hr⟩ := roots_built H batch.blockRoots slot.toNat 1 _ hroot
  obtain ⟨bp', hb', hbl⟩ := fixed_eq 13 _ bl
  have hbp' : HeaderValidator.fixed 13 (HeaderValidator.buildProof H batch.blockRoots.toList (slot.toNat % 8192)) = some bp :=
    hbp
  rw [hb'] at hbp'
  cases hbp'
  have hidx : ChainHead.historicalSummaryIndex slot.toNat = some (slot.toNat / 8192 - 758) := by
    unfold ChainHead.historicalSummaryIndex ChainHead.capellaSlot
    rw [if_neg (by omega)]
    exact congrArg some (by omega)
  simp only [HeaderValidator.validate, HeaderValidator.verifyPostDeneb] at hv
  split at hv
  · cases hv
  · split at hv
    · cases hv
    · have hs : HeaderValidator.verifySummaries H (HeaderValidator.getSummary [] (fun _ => some s) slot.toNat).1 slot
          (tree.root H) bp.toList = true := by
        refine Classical.byContradiction fun hc => ?_
        simp only [hc] at hv
        cases hv
      have hget : (HeaderValidator.getSummary [] (fun _ => some s) slot.toNat).1 = s[slot.toNat / 8192 - 758]? := by
        unfold HeaderValidator.getSummary
        rw [hidx]
        simp only [List.getElem?_nil]
        cases s[slot.toNat / 8192 - 758]? <;> rfl
      rw [hget] at hs
      cases hx : s[slot.toNat / 8192 - 758]? with
      | none => rw [hx] at hs; cases hs
      | some sm =>
        rw [hx] at hs
        refine ⟨sm, rfl, ?_⟩
        obtain ⟨_, h⟩ := (Merkle.verify_iff ..).mp hs
        rw [hbl] at h
        rw [← hr, ← h]

theorem round_without (i : Inputs Tx Rc Wd) (c : Chain Tx Rc Wd) (a : Beacons Wd) (hc : Canon i c a) {fin : Nat}
    {node : Node Rc Wd} (hn : Follows i c a fin node) (n : Nat) (b : Builder) (hb : At i c a n b) (hb0 : b.anchor = 0)
    (period : Nat) (hperiod : a.slotOf n / 8192 = period) (hslot : a.slotOf n % 8192 ≠ 0)
    (st st' : BState) (hst : StateOf i c period st) (root : Id)
    (hst' : st' = ⟨st.slot + 1, ⟨st.batch.blockRoots.set 0 root, st.batch.stateRoots⟩, st.summaries⟩)
    (hne : containerRoot i.H (st.batch.blockRoots.set 0 root).toList ≠ containerRoot i.H st.batch.blockRoots.toList)
    (fuel : Nat) (r : Full Tx Rc Wd × Builder) :
    round i (without node ((period + 1) * 8192) st') fuel b n ≠ some (.ok r) := by
  intro h
  obtain ⟨r1, r2⟩ := hb.range
  have hlo := slot_le hc a.lo n (Nat.le_refl _) r1 r2
  have hhi := slot_le hc n a.hi r1 r2 (Nat.le_refl _)
  have hlate := hc.late
  have hbound := hc.bound
  have hn' : Follows i c a fin (without node ((period + 1) * 8192) st') :=
    ⟨hn.range, hn.finalized, hn.block, hn.skipped, hn.root, hn.header, hn.receipts⟩
  have hfind := findFrom_honest hc hn' n r1 r2 5 b.slot hb.slot.1 hb.slot.2 hb.after
  have hs := hc.slot n r1 r2
  unfold HeadGen.round findFirst at h
  rw [hfind] at h
  obtain ⟨x, hx, h⟩ := run_ok h
  cases hx
  obtain ⟨b1, hb1, h⟩ := run_ok h
  obtain ⟨f, hf, h⟩ := run_ok h
  obtain ⟨cache, hv, h⟩ := run_ok h
  have hf := some_ok hf
  have hv := some_ok hv
  rw [hs] at hb1
  subst hperiod
  obtain ⟨u1, u2, u3⟩ := updateAnchors_without node (a.slotOf n) st' (by omega) (by omega)
    (by rw [hst']; simp only; rw [hst.slot]) fuel b b1 hb0 hb1
  unfold HeadGen.buildBlock at hf
  split at hf
  · cases hf
  · next hnum =>
    obtain ⟨⟨⟨hd, p⟩, body⟩, hr, hf⟩ := bind_ok hf
    have hpf := ((C70_exact i.lib _ _ _ p hd body).mp hr).2
    have hvn := (C70_valid i.lib _ _ _ p hd body hr).2.1
    split at hf
    · cases hf
    · cases hf
      obtain ⟨hg, _⟩ := E2hsGen.validateBlock_ok i b1.summaries b1.cache cache _ n (.inl u3)
        (by show hd.number.toNat = n; rw [hvn]; exact Decidable.not_not.mp hnum) hv
      have hroot := (hc.block n r1 r2).root
      rw [u1] at hpf
      obtain ⟨sm, hsm, hsr⟩ := electra_proof i.H i.net i.trusted b1.summaries _ (a.signed n).beacon.slot st'.batch
        (a.signed n).beacon.fork (a.signed n).tree p (hc.electra n r1 r2) (by rw [hs]; omega) (by
          rw [hst']
          simp only
          rw [Vector.toList_set, List.getElem?_set_ne (by rw [hs]; omega), hst.batch]
          exact hroot) hpf hg.proof
      rw [hs, u2, hst'] at hsm
      rw [hst'] at hsr
      simp only at hsm hsr
      obtain ⟨sm', hsm', hsr'⟩ := hst.summaries (a.slotOf n / 8192) (by omega) (Nat.le_refl _)
      rw [hsm] at hsm'
      cases hsm'
      apply hne
      rw [← hsr, hsr', hst.batch]

/-- When there is no block in the first slot of a period and the node has no state for that slot, the generator takes the
state of the next slot. In it the first root of the period before is already replaced, so that the proofs it builds are not
valid: it stops, without a file, and so it does whenever it is started again. -/
theorem C72_skipped_violated (i : Inputs Tx Rc Wd) (c : Chain Tx Rc Wd) (a : Beacons Wd) (hok : ChainOk i c)
    (hp : i.net.parisBlock.toNat = 15537394) (hc : Canon i c a) (bucket : Bucket) (lo m : Nat) (hold : Holds bucket lo (m + 1))
    (hlo : lo ≤ m) (hm : m < 100000) (pages : List Page) (hl : Listing bucket pages)
    (fin first : Nat) (node : Node Rc Wd) (hn : HonestNode i c a fin node) (hfst : FirstOfPeriod a fin first)
    (h1 : a.lo ≤ (m + 1) * 8192) (h3 : (m + 1) * 8192 + 8192 ≤ first) (h4 : first < (m + 1) * 8192 + 648000)
    (period : Nat) (hperiod : a.slotOf ((m + 1) * 8192) / 8192 = period) (hslot : a.slotOf ((m + 1) * 8192) % 8192 ≠ 0)
    (st st' : BState) (hst : StateOf i c period st) (root : Id)
    (hst' : st' = ⟨st.slot + 1, ⟨st.batch.blockRoots.set 0 root, st.batch.stateRoots⟩, st.summaries⟩)
    (hne : containerRoot i.H (st.batch.blockRoots.set 0 root).toList ≠ containerRoot i.H st.batch.blockRoots.toList)
    (fuel : Nat) (s : S3) :
    Sys.run i ⟨bucket, none⟩ [.start pages node,
      .tick fuel node (fun _ => without node ((period + 1) * 8192) st') s] = ⟨bucket, none⟩ := by
  obtain ⟨key, hk1, hk2⟩ := listing_last bucket pages lo m hold hlo hm hl
  have hfin := hn.range
  have hff := hfst.2.1
  have hle : (m + 1) * 8192 ≤ first := Nat.le_trans (Nat.le_add_right _ _) h3
  have hlt : (m + 1) * 8192 < a.hi :=
    Nat.lt_of_lt_of_le (Nat.lt_of_lt_of_le (Nat.lt_add_of_pos_right (by decide)) h3) (Nat.le_trans hff hfin.2)
  obtain ⟨b, hb1, hb2, hb3, hb4⟩ := start_honest hok hp hc hn.toFollows hfst pages key m hk1 hk2 h1 hlt hle
    (by unfold maxBackfill; exact h4)
  have hrun : Sys.run i ⟨bucket, none⟩ [.start pages node,
      .tick fuel node (fun _ => without node ((period + 1) * 8192) st') s] =
      Sys.step i ⟨bucket, some b⟩ (.tick fuel node (fun _ => without node ((period + 1) * 8192) st') s) := by
    have : Sys.step i ⟨bucket, none⟩ (.start pages node) = ⟨bucket, some b⟩ := by
      unfold Sys.step
      simp only
      rw [hb1]
    unfold Sys.run
    rw [List.foldl_cons, List.foldl_cons, List.foldl_nil, this]
  rw [hrun]
  have hno : ∀ r, HeadGen.buildFile i (fun _ => without node ((period + 1) * 8192) st') fuel b ≠ some (.ok r) := by
    intro r hbf
    unfold HeadGen.buildFile at hbf
    split at hbf
    · cases hbf
    · obtain ⟨w, _, hbf⟩ := run_ok hbf
      obtain ⟨r', hloop, _⟩ := run_ok hbf
      rw [hb2, List.range'_succ (n := 8191)] at hloop
      unfold HeadGen.writeLoop at hloop
      obtain ⟨⟨f, b'⟩, hround, _⟩ := run_ok hloop
      exact round_without i c a hc hn.toFollows ((m + 1) * 8192) b hb3 hb4 period hperiod hslot st st' hst root hst' hne fuel
        (f, b') hround
  have htick : HeadGen.tick i fuel node (fun _ => without node ((period + 1) * 8192) st') s b bucket = (none, bucket) := by
    generalize ht : HeadGen.tick i fuel node (fun _ => without node ((period + 1) * 8192) st') s b bucket = t
    rcases tick_cases i fuel node _ s b bucket t ht with h | h | ⟨bytes, epoch, hash, b', hbf, _⟩
    · exact h
    · unfold HeadGen.tick at ht
      rw [amount_honest hc hn.toFollows hfst b.index (by rw [hb2]; exact hle)] at ht
      simp only at ht
      have hge : first - b.index * 8192 ≥ 8192 := by rw [hb2]; exact Nat.le_sub_of_add_le (by rw [Nat.add_comm]; exact h3)
      rw [if_pos hge] at ht
      subst h
      split at ht
      · next bytes epoch hash b' hbf => exact absurd hbf (hno _)
      · exact ht.symm
    · exact absurd hbf (hno _)
  unfold Sys.step
  simp only
  rw [htick]

/-! ## A chain where the first slot of every period has no block -/

namespace HeadGenExample
open E2hsGenExample (Enc encIds_length headerFields proofFields codec codec_lossless number_toNat)
open E2hsGenExample.Enc (enc)

def lib : ExecBuilder.ExecLib Bytes Bytes Bytes where
  header := ⟨fun h => toBe 8 h.number.toNat, fun _ => none⟩
  ommers := ⟨fun _ => [1], fun _ => none⟩
  tx := ⟨id, some⟩
  txEnvelope := some
  receipt := ⟨id, some⟩
  withdrawal := ⟨id, some⟩
  keccak b := BitVec.ofNat 256 (fromBe b)
  sha256 _ := 0
  trieRoot l := BitVec.ofNat 256 (l.length + 5)
open Verif.ExecBuilder (Header Beacon)
open Verif.HistoryValue (Body)

def H (a b : Id) : Id := a - b

theorem H_left (a b c : Id) (h : H a c = H b c) : a = b := by
  have h : a - c = b - c := h
  have h := congrArg (· + c) h
  simpa [BitVec.sub_add_cancel] using h

theorem H_right (a b c : Id) (h : H a b = H a c) : b = c := by
  have h : a - b = a - c := h
  have e : ∀ x : Id, a - (a - x) = x := fun x => by
    apply BitVec.eq_of_toNat_eq
    have := a.isLt
    have := x.isLt
    rw [BitVec.toNat_sub, BitVec.toNat_sub]
    omega
  rw [← e b, h, e]

theorem tree_one (d : Nat) : ∀ (f g : Nat → Id) (k : Nat), k < 2 ^ d → (∀ j, j < 2 ^ d → j ≠ k → f j = g j) →
    Merkle.treeRoot H d f = Merkle.treeRoot H d g → f k = g k := by
  induction d with
  | zero =>
    intro f g k hk _ h
    have : k = 0 := by simp at hk; exact hk
    subst this
    exact h
  | succ d ih =>
    intro f g k hk hj h
    have e : 2 ^ (d + 1) = 2 ^ d + 2 ^ d := by rw [Nat.pow_succ]; omega
    simp only [Merkle.treeRoot] at h
    by_cases hlt : k < 2 ^ d
    · rw [Merkle.treeRoot_congr H d (fun i => f (2 ^ d + i)) (fun i => g (2 ^ d + i))
        (fun j h' => hj _ (by omega) (by omega))] at h
      exact ih f g k hlt (fun j h1 h2 => hj j (by omega) h2) (H_left _ _ _ h)
    · rw [Merkle.treeRoot_congr H d f g (fun j h' => hj _ (by omega) (by omega))] at h
      have := ih (fun i => f (2 ^ d + i)) (fun i => g (2 ^ d + i)) (k - 2 ^ d) (by omega)
        (fun j h1 h2 => hj _ (by omega) (by omega)) (H_right _ _ _ h)
      rwa [show 2 ^ d + (k - 2 ^ d) = k by omega] at this

theorem depth_enough (n : Nat) : n ≤ 2 ^ HeaderValidator.depthFor n := by
  unfold HeaderValidator.depthFor
  split
  · simpa
  · have := Nat.lt_log2_self (n := n - 1)
    omega

theorem container_one (a b : List Id) (x y : Id)
    (h : containerRoot H (a ++ x :: b) = containerRoot H (a ++ y :: b)) : x = y := by
  unfold containerRoot Merkle.listRoot at h
  have hl : (a ++ x :: b).length = (a ++ y :: b).length := by simp
  rw [hl] at h
  have hd := depth_enough (a ++ y :: b).length
  have := tree_one _ _ _ a.length (by simp only [List.length_append, List.length_cons] at hd ⊢; omega) (fun j _ hj => ?_) h
  · simpa using this
  · simp only [List.getD_eq_getElem?_getD]
    by_cases hlt : j < a.length
    · rw [List.getElem?_append_left hlt, List.getElem?_append_left hlt]
    · rw [List.getElem?_append_right (by omega), List.getElem?_append_right (by omega)]
      obtain ⟨k, hk⟩ : ∃ k, j - a.length = k + 1 := ⟨j - a.length - 1, by omega⟩
      rw [hk, List.getElem?_cons_succ, List.getElem?_cons_succ]

def slotOf (n : Nat) : Nat := 800 * 8192 + (n - 21291008) / 8191 * 8192 + (n - 21291008) % 8191 + 1

def hashOf (n : Nat) : Id := lib.keccak (toBe 8 (UInt64.ofNat n).toNat)

def tree (n : Nat) : HeaderValidator.Block .electra := ⟨Vector.replicate 4 1, Vector.replicate 9 2, Vector.replicate _ 3,
  Vector.replicate 12 4, hashOf n, Vector.replicate _ 5⟩

theorem hashOf_inj (n m : Nat) (hn : n < 2 ^ 64) (hm : m < 2 ^ 64) (h : hashOf n = hashOf m) : n = m := by
  have key : ∀ n, n < 2 ^ 64 → (hashOf n).toNat = n := by
    intro n hn
    show (BitVec.ofNat 256 (fromBe (toBe 8 (UInt64.ofNat n).toNat))).toNat = n
    rw [number_toNat n hn, fromBe_toBe, Nat.mod_eq_of_lt (show n < 256 ^ 8 by omega), BitVec.toNat_ofNat,
      Nat.mod_eq_of_lt (by omega)]
  rw [← key n hn, ← key m hm, h]

theorem root_inj (n m : Nat) (hn : n < 2 ^ 64) (hm : m < 2 ^ 64) (h : (tree n).root H = (tree m).root H) : n = m := by
  apply hashOf_inj n m hn hm
  unfold HeaderValidator.Block.root HeaderValidator.Block.blockLeaves at h
  have h := container_one _ [] _ _ h
  unfold HeaderValidator.Block.bodyRoot HeaderValidator.Block.bodyLeaves at h
  have h := container_one _ _ _ _ h
  unfold HeaderValidator.Block.payloadRoot HeaderValidator.Block.payloadLeaves at h
  exact container_one _ _ _ _ h

def header (n : Nat) : Header where
  parentHash := 0
  ommersHash := lib.keccak [1]
  beneficiary := 0
  stateRoot := 0
  transactionsRoot := lib.trieRoot [[1]]
  receiptsRoot := lib.trieRoot [[7]]
  logsBloom := []
  difficulty := 0
  number := UInt64.ofNat n
  gasLimit := 9
  gasUsed := 8
  timestamp := 3
  extraData := []
  mixHash := 0
  nonce := 0
  baseFee := some 3
  withdrawalsRoot := some (lib.trieRoot [])
  blobGasUsed := some 0
  excessBlobGas := some 0
  parentBeaconBlockRoot := some ((tree (n - 1)).root H)
  requestsHash := some 0

def body (_ : Nat) : Body Header Bytes Bytes := ⟨[[1]], [], some []⟩

def beacon (n : Nat) : Beacon Bytes where
  fork := .electra
  slot := UInt64.ofNat (slotOf n)
  parentRoot := (tree (n - 1)).root H
  payload := ⟨0, 0, 0, lib.trieRoot [[7]], [], 0, UInt64.ofNat n, 9, 8, 3, [], 3, hashOf n, [[1]], [], 0, 0⟩
  requests := ⟨[], [], []⟩

def signed (n : Nat) : Signed Bytes := ⟨beacon n, tree n⟩

def batch (e : Nat) : Batch :=
  ⟨Vector.ofFn fun k : Fin 8192 => (tree (21291008 + (e - 801) * 8191 + (k - 1))).root H, Vector.replicate 8192 0⟩

def summaries (e : Nat) : List Summary := (List.range' 758 (e - 758)).map fun p =>
  ⟨containerRoot H (batch (p + 1)).blockRoots.toList, 0⟩

def chain : Chain Bytes Bytes Bytes := ⟨header, body, fun _ => [[7]], fun _ => 0, batch, 0⟩

def beacons : Beacons Bytes := ⟨21291008, 21331963, slotOf, signed⟩

noncomputable def world : Inputs Bytes Bytes Bytes where
  lib := lib
  H := H
  net := ⟨15537394, 2, 3⟩
  trusted := ⟨[], []⟩
  codecs := ⟨codec _, codec _, codec _⟩
  latest := none
  accumulator _ := none
  receipts _ := none
  site :=
    { eraLinks := none
      era1Links := none
      first := fun _ => .err
      era := fun _ => .err
      era1 := fun _ => .err }

theorem container_set (v : Vector Id 8192) (y : Id)
    (h : containerRoot H (v.set 0 y).toList = containerRoot H v.toList) : v.toList[0]? = some y := by
  rw [Vector.toList_set] at h
  have hl : v.toList.length = 8192 := by simp
  generalize v.toList = l at *
  cases l with
  | nil => cases hl
  | cons x l =>
    rw [List.set_cons_zero] at h
    have := container_one [] l _ _ h
    rw [this]
    rfl

open Classical in
noncomputable def pick {α : Type} (f : Nat → α) (x : α) : Option (Signed Bytes) :=
  if h : ∃ n, 21291008 ≤ n ∧ n ≤ 21331963 ∧ f n = x then some (signed h.choose) else none

theorem pick_eq {α : Type} (f : Nat → α) (n : Nat) (h1 : 21291008 ≤ n) (h2 : n ≤ 21331963)
    (hf : ∀ m, 21291008 ≤ m → m ≤ 21331963 → f m = f n → m = n) : pick f (f n) = some (signed n) := by
  unfold pick
  have h : ∃ m, 21291008 ≤ m ∧ m ≤ 21331963 ∧ f m = f n := ⟨n, h1, h2, rfl⟩
  rw [dif_pos h]
  obtain ⟨a, b, c⟩ := h.choose_spec
  rw [hf _ a b c]

noncomputable def node (fin : Nat) : Node Bytes Bytes where
  finalized := some (signed fin)
  block := pick slotOf
  blockByRoot := pick fun n => (tree n).root H
  state s := if s % 8192 = 0 then some ⟨s, batch (s / 8192), summaries (s / 8192)⟩ else none
  header n := some (header n)
  receipts _ := some [[7]]

attribute [local irreducible] containerRoot batch summaries tree

theorem world_H : world.H = H := rfl
theorem chain_batch : chain.batch = batch := rfl

theorem chainOk : ChainOk world chain :=
  ⟨fun n hn => number_toNat n hn, fun n => ⟨rfl, rfl, rfl⟩, fun _ => rfl⟩

theorem blockOf (n : Nat) : BlockOf lib (beacon n) (header n) (body n) :=
  ⟨⟨rfl, rfl, rfl, rfl, rfl, rfl, rfl, rfl, rfl⟩,
    ⟨rfl, rfl, rfl, rfl, rfl, rfl, rfl, rfl, rfl, rfl, rfl, rfl, rfl, rfl, rfl, rfl, rfl, rfl⟩, ⟨rfl, rfl, rfl⟩, rfl, rfl⟩

theorem canon : Canon world chain beacons := by
  have hslot : ∀ n, n ≤ 21331963 → (signed n).beacon.slot.toNat = slotOf n := fun n hn =>
    number_toNat _ (show _ < 2 ^ 64 by unfold slotOf; omega)
  have hnum : ∀ n, n ≤ 21331963 → (signed n).number = n := fun n hn => number_toNat n (show _ < 2 ^ 64 by omega)
  refine ⟨fun n h1 h2 => ?_, fun n h1 h2 => hnum n h2, fun n h1 h2 => hslot n h2, fun n _ _ => rfl, fun n h1 h2 => rfl,
    fun n h1 h2 => ?_, by decide, by decide, by decide⟩
  · have h1 : 21291008 ≤ n := h1
    have h2 : n ≤ 21331963 := h2
    refine ⟨by show BlockOf _ _ (header (signed n).number) (body (signed n).number); rw [hnum n h2]; exact blockOf n, ?_, ?_,
      ?_, nofun, nofun, fun _ => ?_, fun _ => ?_⟩
    · show (tree n).blockHash = hashOf n
      unfold tree
      rfl
    · show (signed n).beacon.slot.toNat / 8192 + 1 = slotOf n / 8192 + 1
      rw [hslot n h2]
    · show (batch (slotOf n / 8192 + 1)).blockRoots.toList[(signed n).beacon.slot.toNat % 8192]? = some ((tree n).root H)
      rw [hslot n h2]
      have hk : slotOf n % 8192 < 8192 := Nat.mod_lt _ (by decide)
      have he : 21291008 + (slotOf n / 8192 + 1 - 801) * 8191 + (slotOf n % 8192 - 1) = n := by unfold slotOf; omega
      generalize slotOf n % 8192 = k at hk he
      generalize slotOf n / 8192 + 1 = e at he
      unfold batch
      simp only [Vector.toList_ofFn, List.getElem?_ofFn, hk, dif_pos]
      rw [he]
    · show (3 : UInt64) ≤ 3
      decide
    · show 758 < slotOf n / 8192 + 1
      unfold slotOf
      omega
  · have h1 : 21291008 ≤ n := h1
    show slotOf n < slotOf (n + 1) ∧ slotOf (n + 1) ≤ slotOf n + 6
    unfold slotOf
    omega

theorem stateOf (p : Nat) (h : 757 ≤ p) :
    StateOf world chain p ⟨(p + 1) * 8192, batch (p + 1), summaries (p + 1)⟩ := by
  refine ⟨rfl, rfl, fun q h1 h2 => ?_⟩
  rw [world_H, chain_batch]
  refine ⟨⟨containerRoot H (batch (q + 1)).blockRoots.toList, 0⟩, ?_, rfl⟩
  show (summaries (p + 1))[q - 758]? = _
  rw [summaries, List.getElem?_map, List.getElem?_range' (by omega)]
  simp only [Option.map_some, Nat.one_mul]
  rw [show 758 + (q - 758) = q by omega]

theorem honest (fin : Nat) (h1 : 21291008 ≤ fin) (h2 : fin ≤ 21331963) : HonestNode world chain beacons fin (node fin) where
  range := ⟨h1, h2⟩
  finalized := rfl
  block n a b := pick_eq slotOf n a b fun m c d h => by
    have a : 21291008 ≤ n := a
    unfold slotOf at h
    omega
  skipped s _ _ h := by
    show pick slotOf s = none
    unfold pick
    rw [dif_neg]
    rintro ⟨n, a, b, c⟩
    exact h n a b c
  root n a b := pick_eq (fun n => (tree n).root H) n a b fun m c d h => by
    have b : n ≤ 21331963 := b
    exact root_inj m n (show _ < 2 ^ 64 by omega) (show _ < 2 ^ 64 by omega) h
  header n _ _ := rfl
  receipts n _ _ := rfl
  state p h _ := by
    have h : 800 ≤ p := h
    refine ⟨⟨(p + 1) * 8192, batch (p + 1), summaries (p + 1)⟩, ?_, stateOf p (by omega)⟩
    show (if (p + 1) * 8192 % 8192 = 0 then some (BState.mk ((p + 1) * 8192) (batch ((p + 1) * 8192 / 8192))
      (summaries ((p + 1) * 8192 / 8192))) else none) = _
    rw [if_pos (Nat.mul_mod_left ..), Nat.mul_div_cancel _ (by decide)]

theorem fits : Fits world chain := by
  refine ⟨fun n p => ?_, fun n => ?_, fun n => by show ([1, 1, 7, 0, 0] : Bytes).length + 8 < 2 ^ 32; decide⟩
  · show (enc (header n) ++ enc p).length + 8 < 2 ^ 32
    have h1 : (enc (header n)).length ≤ 1000 := by
      show (enc (headerFields (header n))).length ≤ 1000
      unfold headerFields header
      simp [enc, E2hsGenExample.encList]
    have h2 : (enc p).length ≤ 1000 := by
      show (enc (proofFields p)).length ≤ 1000
      have key : ∀ x : UInt8 × List Id × Id × List Id × UInt64, (enc x).length =
          1 + (33 * x.2.1.length + 1) + 32 + (33 * x.2.2.2.1.length + 1) + 8 := by
        intro x
        obtain ⟨a, b, c, d, e⟩ := x
        show (enc a ++ (enc b ++ (enc c ++ (enc d ++ enc e)))).length = _
        simp only [List.length_append, encIds_length]
        have e1 : (enc a).length = 1 := rfl
        have e2 : (enc c).length = 32 := toBe_length ..
        have e3 : (enc e).length = 8 := toBe_length ..
        omega
      rw [key]
      cases p <;> simp [proofFields]
    rw [List.length_append]
    omega
  · show (enc (([[1]], [], some []) : List Bytes × List Header × Option (List Bytes))).length + 8 < 2 ^ 32
    decide +kernel

theorem firstOf : FirstOfPeriod beacons 21315591 21315581 := by
  refine ⟨?_, ?_, ?_, ?_⟩ <;> decide

/-- A bucket with two files. -/
def bucket : Bucket := [("mainnet-02598-00000000.e2hs".toList, [1]), ("mainnet-02599-ffffffff.e2hs".toList, [2])]
def pages : List Page := [⟨["mainnet-02598-00000000.e2hs".toList], true, true⟩,
  ⟨["mainnet-02599-ffffffff.e2hs".toList], false, false⟩]

theorem key2598 : KeyFor "mainnet-02598-00000000.e2hs".toList 2598 :=
  ⟨"00000000".toList, "02598".toList, by constructor <;> decide⟩
theorem key2599 : KeyFor "mainnet-02599-ffffffff.e2hs".toList 2599 :=
  ⟨"ffffffff".toList, "02599".toList, by constructor <;> decide⟩

theorem holds : Holds bucket 2598 2600 := by
  constructor
  · intro e he
    unfold bucket at he
    rcases List.mem_cons.mp he with rfl | he
    · exact ⟨2598, by omega, by omega, key2598⟩
    · rw [List.mem_singleton] at he
      subst he
      exact ⟨2599, by omega, by omega, key2599⟩
  · intro k h1 h2
    have : k = 2598 ∨ k = 2599 := by omega
    rcases this with rfl | rfl
    · exact ⟨_, List.mem_cons_self, key2598⟩
    · exact ⟨_, List.mem_cons_of_mem _ List.mem_cons_self, key2599⟩

theorem listing : Listing bucket pages := by
  refine ⟨fun k => ?_, by decide, by decide, ?_⟩
  · simp only [bucket, pages, List.flatMap_cons, List.flatMap_nil, List.append_nil, List.mem_append, List.mem_singleton,
      List.mem_cons, List.not_mem_nil, or_false]
    constructor
    · rintro (rfl | rfl)
      · exact ⟨_, .inl rfl, rfl⟩
      · exact ⟨_, .inr rfl, rfl⟩
    · rintro ⟨e, rfl | rfl, rfl⟩
      · exact .inl rfl
      · exact .inr rfl
  · intro p hp
    cases hp
    rfl

def s3 : S3 := ⟨true, fun _ => true, .done⟩
noncomputable def oneRound : Event Bytes Bytes := .tick 1 (node 21315591) (fun _ => node 21315591) s3

theorem honestRound : HonestRound world chain beacons 21315581 oneRound :=
  ⟨1, 21315591, _, _, s3, rfl, by decide, honest _ (by decide) (by decide), firstOf,
    fun _ => ⟨21315591, Nat.le_refl _, honest _ (by decide) (by decide)⟩, rfl, fun _ => rfl, rfl⟩

/-- The generator starts after the file with index 2599 and makes the next one, which is complete. -/
theorem made : ∃ s b, Sys.run world ⟨bucket, none⟩ [.start pages (node 21315591), oneRound] = s ∧ s.gen = some b ∧
    b.index = 2601 ∧ Holds s.bucket 2598 2601 ∧ ∃ e ∈ s.bucket, KeyFor e.1 2600 ∧ ChainFile world chain 2600 e.2 := by
  obtain ⟨s, b, h1, h2, h3, h4, _, h5⟩ := C72_complete_partial world chain beacons chainOk fits rfl canon (codec_lossless _)
    (codec_lossless _) (codec_lossless _) bucket 2598 2599 holds (by decide) (by decide) pages listing 21315591 21315581
    (node 21315591) (honest _ (by decide) (by decide)) firstOf (by decide) (by decide) (by decide) (by decide)
    [(21315581, oneRound)] (by intro r hr; cases List.mem_singleton.mp hr; exact honestRound) (by decide)
  have h3 : b.index = 2601 := h3
  rw [h3] at h4 h5
  exact ⟨s, b, h1, h2, h3, h4, h5 2600 (by decide) (by decide)⟩

theorem faithful (es : List (Event Bytes Bytes)) (h : ∀ e ∈ es, ∀ p n, e ≠ .start p n) (s : Sys) : Faithful world s es := by
  induction es generalizing s with
  | nil => trivial
  | cons e es ih =>
    refine ⟨?_, ih (fun e he => h e (List.mem_cons_of_mem _ he)) _⟩
    cases e with
    | start p n => exact absurd rfl (h _ List.mem_cons_self p n)
    | _ => trivial

/-- What is in the bucket then. -/
example : ∀ e ∈ (Sys.run world ⟨bucket, none⟩ [.start pages (node 21315591), oneRound]).bucket, e ∈ bucket ∨
    ∃ k, GoodFile world (Served [.start pages (node 21315591), oneRound]) k e.1 e.2 :=
  (C72_bucket world (codec_lossless _) (codec_lossless _) (codec_lossless _) bucket 2598 2600 holds (by decide)
    [.start pages (node 21315591), oneRound] ⟨fun p hp k hk => (listing.all k).mp (List.mem_flatMap.mpr ⟨p, hp, hk⟩),
      faithful _ (fun e he p n h => by cases List.mem_singleton.mp he; cases h) _⟩).2.2

/-- With a node that does not have the state at the skipped first slot: no file. -/
example : Sys.run world ⟨bucket, none⟩ [.start pages (node 21315591),
    .tick 9 (node 21315591) (fun _ => without (node 21315591) ((801 + 1) * 8192)
      ⟨(801 + 1) * 8192 + 1, ⟨(batch 802).blockRoots.set 0 ((tree 21307389).root H), (batch 802).stateRoots⟩,
        summaries 802⟩) s3] = ⟨bucket, none⟩ := by
  refine C72_skipped_violated world chain beacons chainOk rfl canon bucket 2598 2599 holds (by decide) (by decide) pages
    listing 21315591 21315581 (node 21315591) (honest _ (by decide) (by decide)) firstOf (by decide) (by decide) (by decide)
    801 (by decide) (by decide) ⟨(801 + 1) * 8192, batch 802, summaries 802⟩ _ (stateOf 801 (by decide))
    ((tree 21307389).root H) rfl ?_ 9 s3
  intro h
  have h := container_set _ _ h
  have hb : (batch 802).blockRoots.toList[0]? = some ((tree 21299199).root H) := by
    unfold batch
    simp only [Vector.toList_ofFn, List.getElem?_ofFn]
    rfl
  have h : (batch 802).blockRoots.toList[0]? = some ((tree 21307389).root H) := h
  rw [hb] at h
  exact absurd (root_inj 21299199 21307389 (by decide) (by decide) (Option.some.inj h)) (by decide)

/-- When the second page of the listing is missing, it starts with an index that the bucket already has. -/
example : ∃ b, HeadGen.start world (pages.take 1) (node 21315591) = .ok b ∧ b.index = 2599 ∧
    ∃ e ∈ bucket, KeyFor e.1 2599 := by
  obtain ⟨b, h1, h2, _⟩ := start_honest chainOk rfl canon (honest 21315591 (by decide) (by decide)).toFollows firstOf
    (pages.take 1) "mainnet-02598-00000000.e2hs".toList 2598 rfl key2598 (by decide) (by decide) (by decide)
    (by unfold maxBackfill; decide)
  obtain ⟨h3, h4⟩ := C72_listing_violated world bucket 2598 2599 holds (by decide) _ _ listing (by decide) _ 2598 rfl key2598
    (by decide) (node 21315591) b h1
  rw [h3] at h4
  exact ⟨b, h1, h3, h4⟩
/-- After a change to a node that is behind, it stops. -/
example : amount (node 21315591) 2604 = .panic :=
  (C72_behind_violated world chain beacons canon 21315591 21315581 _ (honest _ (by decide) (by decide)) firstOf 2604
    (by decide)).1
/-- A node that always answers with an early state. -/
example (fuel : Nat) (h : fuel < 2 ^ 32) : stateForNext
    { node 21315591 with state := fun _ => some ⟨0, batch 1, []⟩ } fuel 6553600 = none :=
  C72_endless_violated _ _ _ (by omega) fun s hs => ⟨_, rfl, show 0 < s by omega⟩
/-- The bucket changed in the round above, so that all blocks of the file were before the latest finalized period. -/
example : ∃ x slot, 6578176 ≤ slot ∧ slot ≤ 6578181 ∧ (node 21315591).block slot = some x ∧ 21307392 ≤ x.number := by
  obtain ⟨key, hk1, hk2⟩ := listing_last bucket pages 2598 2599 holds (by decide) (by decide) listing
  obtain ⟨b, hb1, hb2, _⟩ := start_honest chainOk rfl canon (honest 21315591 (by decide) (by decide)).toFollows firstOf
    pages key 2599 hk1 hk2 (by decide) (by decide) (by decide) (by unfold maxBackfill; decide)
  have hs : Sys.step world ⟨bucket, none⟩ (.start pages (node 21315591)) = ⟨bucket, some b⟩ := by
    unfold Sys.step
    simp only
    rw [hb1]
  obtain ⟨s, b', h1, _, _, h4, _⟩ := made
  have h1 : Sys.step world (Sys.step world ⟨bucket, none⟩ (.start pages (node 21315591))) oneRound = s := h1
  rw [hs] at h1
  obtain ⟨_, nd, _, _, b2, f, x, slot, e1, e2, e3, e4, e5, e6, e7⟩ := C72_provable world ⟨bucket, some b⟩ oneRound (by
    rw [h1]
    intro hc
    obtain ⟨e, he, hk⟩ := h4.all 2600 (by decide) (by decide)
    rw [hc] at he
    obtain ⟨k, _, hk', hk2⟩ := holds.only e he
    have h1 := extract_named _ _ hk (by decide)
    have h2 := extract_named _ _ hk2 (by omega)
    rw [h1] at h2
    cases h2
    omega)
  cases e1
  cases e2
  cases e3
  have hslot : (signed 21315591).beacon.slot.toNat = 6578187 := by decide +kernel
  rw [hslot] at e4 e5
  rw [hb2] at e7
  exact ⟨x, slot, e4, e5, e6, e7⟩
example : ∃ ps, parts [1, 2, 3] = some ps ∧ ps.flatMap (fun p => p.2) = [1, 2, 3] := by
  obtain ⟨ps, h1, _, h2, _⟩ := C72_parts [1, 2, 3] (by decide)
  exact ⟨ps, h1, h2⟩
example : (upload s3 bucket "k".toList [1, 2, 3]).1 = .ok () ∧
    ("k".toList, [1, 2, 3]) ∈ (upload s3 bucket "k".toList [1, 2, 3]).2 := by
  obtain ⟨h1, h2, _⟩ := C72_upload s3 bucket "k".toList [1, 2, 3] (by decide)
  exact ⟨h1 ⟨rfl, fun _ => rfl, rfl⟩, h2 (h1 ⟨rfl, fun _ => rfl, rfl⟩)⟩
example : fileName 2600 [0xde, 0xad, 0xbe, 0xef] = "mainnet-02600-deadbeef.e2hs".toList := by decide +kernel

end HeadGenExample

end Verif.Props
