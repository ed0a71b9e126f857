import Verif.Lemmas.HeadGen

/-! # Lemmas: histories of the head generator -/

namespace Verif.Props
open Verif Verif.HeadGen Verif.HeadSpec Verif.E2hsSpec
open Verif.E2store (Res)
open Verif.E2hsGen (Inputs Signed Full bind_ok map_ok)
open Verif.HeaderValidator (Summary)
open Verif.Archive (Codec)

variable {Tx Rc Wd : Type}

attribute [local irreducible] targetChunk divCeil upload buildFile firstFinalized maxBackfill

theorem put_mem (b : Bucket) (key : List Char) (data : Bytes) (e : List Char × Bytes) :
    e ∈ b.put key data ↔ e = (key, data) ∨ (e ∈ b ∧ e.1 ≠ key) := by
  unfold Bucket.put
  simp

theorem holds_put (b : Bucket) (lo hi k : Nat) (key : List Char) (data : Bytes) (h : Holds b lo hi) (h1 : lo ≤ k)
    (h2 : k ≤ hi) (hk : KeyFor key k) : Holds (b.put key data) lo (max hi (k + 1)) := by
  constructor
  · intro e he
    rw [put_mem] at he
    rcases he with rfl | ⟨he, _⟩
    · exact ⟨k, h1, by omega, hk⟩
    · obtain ⟨j, a, b, c⟩ := h.only e he
      exact ⟨j, a, by omega, c⟩
  · intro j hj1 hj2
    by_cases hjk : j = k
    · subst hjk
      exact ⟨(key, data), (put_mem ..).mpr (.inl rfl), hk⟩
    · obtain ⟨e, he, hkey⟩ := h.all j hj1 (by omega)
      refine ⟨e, (put_mem ..).mpr (.inr ⟨he, fun hne => ?_⟩), hkey⟩
      rw [hne] at hkey
      exact hjk (keyFor_unique _ _ _ hkey hk)

theorem goodFile_key (i : Inputs Tx Rc Wd) (P : List Summary → Prop) (k : Nat) (key : List Char) (bytes : Bytes)
    (h : GoodFile i P k key bytes) : KeyFor key k := by
  obtain ⟨ts, b, last, digits, _, _, _, _, _, hn⟩ := h
  exact ⟨_, _, hn⟩

theorem lastKey_mem (pages : List Page) (last : Option (List Char)) (key : List Char)
    (h : lastKey pages last = .ok (some key)) : last = some key ∨ ∃ p ∈ pages, key ∈ p.keys := by
  induction pages generalizing last with
  | nil => cases h; exact .inl rfl
  | cons p ps ih =>
    unfold lastKey at h
    have key1 : ∀ k, p.keys.getLast?.or last = some k → last = some k ∨ k ∈ p.keys := by
      intro k hk
      rw [Option.or_eq_some_iff] at hk
      rcases hk with hk | ⟨_, hk⟩
      · exact .inr (List.mem_of_getLast? hk)
      · exact .inl hk
    simp only at h
    split at h
    · split at h
      · rcases ih _ h with h | ⟨q, hq, hk⟩
        · rcases key1 key h with h | h
          · exact .inl h
          · exact .inr ⟨p, List.mem_cons_self, h⟩
        · exact .inr ⟨q, List.mem_cons_of_mem _ hq, hk⟩
      · cases h
    · rcases key1 key (by injection h) with h | h
      · exact .inl h
      · exact .inr ⟨p, List.mem_cons_self, h⟩

theorem start_index (i : Inputs Tx Rc Wd) (pages : List Page) (node : Node Rc Wd) (b : Builder)
    (h : HeadGen.start i pages node = .ok b) :
    b.summaries = [] ∧ b.cache = [] ∧ ∃ p ∈ pages, ∃ key ∈ p.keys, ∃ k, extractIndex key = some k ∧ b.index = k + 1 := by
  unfold HeadGen.start at h
  obtain ⟨name, hn, h⟩ := bind_ok h
  split at h
  · cases h
  · next last hlast =>
    split at h
    · cases h
    · obtain ⟨b', hb, h⟩ := bind_ok h
      obtain ⟨a, _, h⟩ := bind_ok h
      split at h
      · cases h
        unfold newBuilder at hb
        split at hb
        · cases hb
        · obtain ⟨slot, _, rfl⟩ := map_ok hb
          unfold lastFileName at hn
          obtain ⟨o, ho, hn⟩ := bind_ok hn
          cases o with
          | none => cases hn
          | some key' =>
            injection hn with hn
            subst hn
            rcases lastKey_mem pages none key' ho with h | ⟨p, hp, hk⟩
            · cases h
            · exact ⟨rfl, rfl, p, hp, key', hk, last, hlast, rfl⟩
      · cases h

/-- What holds after every event. -/
structure SysInv (i : Inputs Tx Rc Wd) (P : List Summary → Prop) (orig : Bucket) (lo hi : Nat) (s : Sys) : Prop where
  holds : Holds s.bucket lo hi
  bound : hi ≤ 2 ^ 64
  gen : ∀ b, s.gen = some b → Anchored P b ∧ lo ≤ b.index ∧ b.index ≤ hi
  files : ∀ e ∈ s.bucket, e ∈ orig ∨ ∃ k, GoodFile i P k e.1 e.2
  kept : ∀ e ∈ orig, ∃ e' ∈ s.bucket, e'.1 = e.1

theorem sysInv_put (i : Inputs Tx Rc Wd) (P : List Summary → Prop) (orig : Bucket) (lo hi k : Nat) (bucket : Bucket)
    (key : List Char) (data : Bytes) (gen : Option Builder)
    (h : SysInv i P orig lo hi ⟨bucket, none⟩) (h1 : lo ≤ k) (h2 : k ≤ hi) (h3 : k + 1 ≤ 2 ^ 64)
    (hg : GoodFile i P k key data) (hgen : ∀ b, gen = some b → Anchored P b ∧ b.index = k + 1) :
    SysInv i P orig lo (max hi (k + 1)) ⟨bucket.put key data, gen⟩ := by
  have hb := h.bound
  refine ⟨holds_put bucket lo hi k key data h.holds h1 h2 (goodFile_key i P k key data hg), by omega, ?_, ?_, ?_⟩
  · intro b hb
    obtain ⟨a, c⟩ := hgen b hb
    exact ⟨a, by omega, by omega⟩
  · intro e he
    rw [put_mem] at he
    rcases he with rfl | ⟨he, _⟩
    · exact .inr ⟨k, hg⟩
    · exact h.files e he
  · intro e he
    obtain ⟨e', h1, h2⟩ := h.kept e he
    by_cases hk : e'.1 = key
    · exact ⟨(key, data), (put_mem ..).mpr (.inl rfl), by rw [← h2, hk]⟩
    · exact ⟨e', (put_mem ..).mpr (.inr ⟨h1, hk⟩), h2⟩

/-- What a round of the loop can do. -/
theorem tick_cases (i : Inputs Tx Rc Wd) (fuel : Nat) (node : Node Rc Wd) (nodes : Nat → Node Rc Wd) (s : S3) (b : Builder)
    (bucket : Bucket) (t : Option Builder × Bucket) (h : HeadGen.tick i fuel node nodes s b bucket = t) :
    t = (none, bucket) ∨ t = (some b, bucket) ∨ ∃ bytes epoch hash b',
      buildFile i nodes fuel b = some (.ok ((bytes, epoch, hash), b')) ∧
      t = uploaded b' (upload s bucket (fileName epoch.toNat hash) bytes) := by
  unfold HeadGen.tick at h
  generalize amount node b.index = a at h
  cases a with
  | err => exact .inl h.symm
  | panic => exact .inl h.symm
  | ok a => 
    simp only at h
    by_cases ha : a ≥ 8192
    · rw [if_pos ha] at h
      generalize buildFile i nodes fuel b = bf at h ⊢
      rcases bf with _ | (⟨⟨bytes, epoch, hash⟩, b'⟩ | _ | _)
      · exact .inl h.symm
      · exact .inr (.inr ⟨bytes, epoch, hash, b', rfl, h.symm⟩)
      · exact .inl h.symm
      · exact .inl h.symm
    · rw [if_neg ha] at h
      exact .inr (.inl h.symm)

theorem step_inv (i : Inputs Tx Rc Wd) (hh : Codec.Lossless i.codecs.headerWithProof)
    (hbd : Codec.Lossless i.codecs.body) (hr : Codec.Lossless i.codecs.receipts) (P : List Summary → Prop) (orig : Bucket)
    (lo hi : Nat) (s : Sys) (e : Event Rc Wd) (hs : SysInv i P orig lo hi s)
    (hP : ∀ node, NodeOf e node → ∀ slot st, node.state slot = some st → P st.summaries)
    (hf : ∀ pages node, e = .start pages node → ∀ p ∈ pages, ∀ k ∈ p.keys, ∃ o ∈ s.bucket, o.1 = k) :
    ∃ hi', hi ≤ hi' ∧ SysInv i P orig lo hi' (s.step i e) := by
  have hnone : SysInv i P orig lo hi ⟨s.bucket, none⟩ := ⟨hs.holds, hs.bound, (fun b hb => nomatch hb), hs.files, hs.kept⟩
  cases e with
  | kill => exact ⟨hi, Nat.le_refl _, hnone⟩
  | start pages node =>
    refine ⟨hi, Nat.le_refl _, ?_⟩
    show SysInv i P orig lo hi (match HeadGen.start i pages node with
      | .ok b => { s with gen := some b }
      | _ => { s with gen := none })
    split
    · next b hb =>
      obtain ⟨h1, h2, p, hp, key, hk, k, hx, hi'⟩ := start_index i pages node b hb
      obtain ⟨o, ho, hok⟩ := hf pages node rfl p hp key hk
      obtain ⟨j, j1, j2, hj⟩ := hs.holds.only o ho
      have hbound := hs.bound
      rw [hok] at hj
      rw [extract_named key j hj (by omega)] at hx
      cases hx
      refine ⟨hs.holds, hs.bound, ?_, hs.files, hs.kept⟩
      intro b' hb'
      cases hb'
      exact ⟨⟨.inl h2, .inl h1⟩, by omega, by omega⟩
    · exact hnone
  | tick fuel node nodes s3 =>
    cases hg : s.gen with
    | none =>
      have : s.step i (.tick fuel node nodes s3) = s := by
        unfold Sys.step
        rw [hg]
      rw [this]
      exact ⟨hi, Nat.le_refl _, hs⟩
    | some b =>
      have : s.step i (.tick fuel node nodes s3) =
          ⟨(HeadGen.tick i fuel node nodes s3 b s.bucket).2, (HeadGen.tick i fuel node nodes s3 b s.bucket).1⟩ := by
        unfold Sys.step
        rw [hg]
      rw [this]
      obtain ⟨g1, g2, g3⟩ := hs.gen b hg
      generalize ht : HeadGen.tick i fuel node nodes s3 b s.bucket = t
      rcases tick_cases i fuel node nodes s3 b s.bucket t ht with rfl | rfl | ⟨bytes, epoch, hash, b', hbf, hu⟩
      · exact ⟨hi, Nat.le_refl _, hnone⟩
      · refine ⟨hi, Nat.le_refl _, hs.holds, hs.bound, ?_, hs.files, hs.kept⟩
        intro b' hb'
        cases hb'
        exact ⟨g1, g2, g3⟩
      · obtain ⟨f1, f2, f3, f4, f5, f6⟩ := buildFile_good i hh hbd hr P nodes
          (fun n slot st h => hP (nodes n) (.inr ⟨n, rfl⟩) slot st h) fuel b b' bytes epoch hash g1 hbf
        have hput := sysInv_put i P orig lo hi b.index s.bucket (fileName epoch.toNat hash) bytes
        rcases upload_object s3 s.bucket (fileName epoch.toNat hash) bytes f6 with hu' | hu' | hu' <;> rw [hu'] at hu <;>
          subst hu
        · exact ⟨_, Nat.le_max_left _ _, hput (some b') hnone g2 g3 (by omega) f3 fun b hb => by cases hb; exact ⟨f4, f5⟩⟩
        · exact ⟨_, Nat.le_max_left _ _, hput none hnone g2 g3 (by omega) f3 fun b hb => nomatch hb⟩
        · exact ⟨hi, Nat.le_refl _, hnone⟩

theorem run_inv (i : Inputs Tx Rc Wd) (hh : Codec.Lossless i.codecs.headerWithProof)
    (hbd : Codec.Lossless i.codecs.body) (hr : Codec.Lossless i.codecs.receipts) (P : List Summary → Prop) (orig : Bucket)
    (lo : Nat) (es : List (Event Rc Wd)) (hi : Nat) (s : Sys) (hs : SysInv i P orig lo hi s)
    (hP : ∀ e ∈ es, ∀ node, NodeOf e node → ∀ slot st, node.state slot = some st → P st.summaries) (hf : Faithful i s es) :
    ∃ hi', hi ≤ hi' ∧ SysInv i P orig lo hi' (s.run i es) := by
  induction es generalizing hi s with
  | nil => exact ⟨hi, Nat.le_refl _, hs⟩
  | cons e es ih =>
    unfold Faithful at hf
    obtain ⟨hi1, h1, h2⟩ := step_inv i hh hbd hr P orig lo hi s e hs (hP e List.mem_cons_self) (by
      rintro pages node rfl
      exact hf.1)
    obtain ⟨hi2, h3, h4⟩ := ih hi1 (s.step i e) h2 (fun e' he => hP e' (List.mem_cons_of_mem _ he)) hf.2
    exact ⟨hi2, by omega, h4⟩

end Verif.Props
