import Verif.Lemmas.E2hsGenComplete
import Verif.Lemmas.HeadGenNames

/-! # Lemmas: files of the head generator -/

namespace Verif.Props
open Verif Verif.HeadGen Verif.HeadSpec Verif.E2hsSpec
open Verif.E2store (Res Short)
open Verif.E2hsGen (Inputs Signed Full Batch proofFor validateBlock fullHash bind_ok map_ok validateBlock_ok written_small)
open Verif.HeaderValidator (Summary HeaderProof containerRoot validate)
open Verif.Archive (E2hs e2hsFormat versionEntry Codec Writer)

variable {Tx Rc Wd : Type}

theorem run_ok {α β : Type} {x : Run α} {f : α → Run β} {b : β} (h : Run.bind x f = some (.ok b)) :
    ∃ a, x = some (.ok a) ∧ f a = some (.ok b) := by
  unfold Run.bind at h
  split at h
  · cases h
  · next a => exact ⟨a, rfl, h⟩
  · cases h
  · cases h

theorem some_ok {α : Type} {x : Res α} {a : α} (h : some x = some (.ok a)) : x = .ok a := Option.some.inj h

/-! ## Uploads -/

theorem chunksOf_flatten (size fuel : Nat) (l : Bytes) (hs : 0 < size) (hf : l.length ≤ fuel) :
    (chunksOf size fuel l).flatten = l := by
  induction fuel generalizing l with
  | zero =>
    have : l = [] := List.length_eq_zero_iff.mp (by omega)
    subst this; rfl
  | succ k ih =>
    unfold chunksOf
    split
    · next h => simp at h; subst h; rfl
    · next h =>
      have hpos : 0 < l.length := by
        cases l with
        | nil => simp at h
        | cons => simp
      rw [List.flatten_cons, ih _ (by rw [List.length_drop]; omega), List.take_append_drop]

theorem lookup_nodup (ps : List (Nat × Bytes)) (h : (ps.map fun p => p.1).Nodup) :
    ((ps.map fun p => p.1).flatMap fun k => ((ps.reverse.find? fun p => p.1 = k).map fun p => p.2).getD []) =
      ps.flatMap fun p => p.2 := by
  rw [List.flatMap_map]
  have key : ∀ p ∈ ps, ps.reverse.find? (fun q => q.1 = p.1) = some p := by
    intro p hp
    cases hq : ps.reverse.find? (fun q => q.1 = p.1) with
    | none =>
      rw [List.find?_eq_none] at hq
      exact absurd (hq p (List.mem_reverse.mpr hp)) (by simp)
    | some q =>
      have h1 := List.mem_reverse.mp (List.mem_of_find?_eq_some hq)
      have h2 := List.find?_some hq
      simp only [decide_eq_true_eq] at h2
      obtain ⟨a, ha⟩ := List.mem_iff_getElem?.mp h1
      obtain ⟨b, hb⟩ := List.mem_iff_getElem?.mp hp
      have ha' : (ps.map fun p => p.1)[a]? = some q.1 := by rw [List.getElem?_map, ha]; rfl
      have hb' : (ps.map fun p => p.1)[b]? = some p.1 := by rw [List.getElem?_map, hb]; rfl
      have hlt : a < (ps.map fun p => p.1).length := by
        rw [List.getElem?_eq_some_iff] at ha'
        exact ha'.1
      have : a = b := (List.getElem?_inj hlt h).mp (by rw [ha', hb', h2])
      rw [this, hb] at ha
      exact ha.symm ▸ rfl
  have : ∀ l : List (Nat × Bytes), (∀ p ∈ l, p ∈ ps) →
      l.flatMap (fun p => ((ps.reverse.find? fun q => q.1 = p.1).map fun p => p.2).getD []) = l.flatMap fun p => p.2 := by
    intro l
    induction l with
    | nil => intro _; rfl
    | cons p l ih =>
      intro hl
      rw [List.flatMap_cons, List.flatMap_cons, ih fun q hq => hl q (List.mem_cons_of_mem _ hq),
        key p (hl p List.mem_cons_self)]
      rfl
  exact this ps fun _ h => h

theorem numbered (cs : List Bytes) (a : Nat) :
    ((cs.zipIdx a).map fun p => (p.2 + 1, p.1)).map (fun p => p.1) = List.range' (a + 1) cs.length ∧
      ((cs.zipIdx a).map fun p => (p.2 + 1, p.1)).flatMap (fun p => p.2) = cs.flatten := by
  induction cs generalizing a with
  | nil => simp
  | cons c cs ih =>
    obtain ⟨h1, h2⟩ := ih (a + 1)
    rw [List.zipIdx_cons, List.map_cons, List.map_cons, List.flatMap_cons, h1, h2, List.length_cons, List.range'_succ]
    exact ⟨rfl, rfl⟩

theorem divCeil_pos (a b : Nat) (ha : 0 < a) (hb : 0 < b) : ∃ c, divCeil a b = some c ∧ 0 < c ∧ a ≤ c * b ∧ (c - 1) * b < a := by
  have h0 : a + b - 1 = (a - 1) + b := by omega
  refine ⟨(a + b - 1) / b, by unfold divCeil; rw [if_neg (by omega)], ?_, ?_, ?_⟩
  · rw [h0, Nat.add_div_right _ hb]; exact Nat.succ_pos _
  · rw [h0, Nat.add_div_right _ hb]
    have := Nat.div_add_mod (a - 1) b
    have h3 := Nat.mod_lt (a - 1) hb
    rw [Nat.succ_mul, Nat.mul_comm ((a - 1) / b) b]
    omega
  · rw [h0, Nat.add_div_right _ hb]
    show (a - 1) / b * b < a
    have := Nat.div_mul_le_self (a - 1) b
    omega

theorem target_pos : 0 < targetChunk := Nat.lt_of_lt_of_eq (show 0 < 104857600 by omega) rfl

attribute [local irreducible] targetChunk divCeil

theorem parts_spec (data : Bytes) (h : data ≠ []) : ∃ (count size : Nat), 0 < count ∧ 0 < size ∧
    data.length ≤ count * targetChunk ∧ (count - 1) * targetChunk < data.length ∧ data.length ≤ size * count ∧
    (size - 1) * count < data.length ∧ parts data = some ((chunksOf size data.length data).zipIdx.map fun p => (p.2 + 1, p.1)) := by
  have hpos : 0 < data.length := List.length_pos_iff.mpr h
  obtain ⟨c, h1, h2, h3, h4⟩ := divCeil_pos data.length targetChunk hpos target_pos
  obtain ⟨s, h5, h6, h7, h8⟩ := divCeil_pos data.length c hpos h2
  refine ⟨c, s, h2, h6, h3, h4, h7, h8, ?_⟩
  unfold parts
  rw [h1, Option.bind_some, h5, Option.map_some]

theorem upload_object (s : S3) (bucket : Bucket) (key : List Char) (data : Bytes) (h : data ≠ []) :
    upload s bucket key data = (.ok (), bucket.put key data) ∨ upload s bucket key data = (.err, bucket.put key data) ∨
      upload s bucket key data = (.err, bucket) := by
  obtain ⟨count, size, h1, h2, _, _, _, _, h3⟩ := parts_spec data h
  unfold upload
  rw [h3]
  unfold uploadParts
  obtain ⟨n1, n2⟩ := numbered (chunksOf size data.length data) 0
  have hobj := lookup_nodup ((chunksOf size data.length data).zipIdx.map fun p => (p.2 + 1, p.1))
    (by rw [n1]; exact List.nodup_range')
  rw [n2, chunksOf_flatten size _ data h2 (Nat.le_refl _)] at hobj
  simp only
  rw [hobj]
  split
  · exact .inr (.inr rfl)
  · split
    · exact .inr (.inr rfl)
    · split
      · exact .inl rfl
      · exact .inr (.inl rfl)
      · exact .inr (.inr rfl)

theorem upload_works (s : S3) (bucket : Bucket) (key : List Char) (data : Bytes) (h : data ≠ []) (hs : S3.Works s) :
    upload s bucket key data = (.ok (), bucket.put key data) := by
  obtain ⟨count, size, h1, h2, _, _, _, _, h3⟩ := parts_spec data h
  unfold upload
  rw [h3]
  unfold uploadParts
  obtain ⟨n1, n2⟩ := numbered (chunksOf size data.length data) 0
  have hobj := lookup_nodup ((chunksOf size data.length data).zipIdx.map fun p => (p.2 + 1, p.1))
    (by rw [n1]; exact List.nodup_range')
  rw [n2, chunksOf_flatten size _ data h2 (Nat.le_refl _)] at hobj
  simp only
  rw [hobj]
  obtain ⟨w1, w2, w3⟩ := hs
  simp [w1, w2, w3]

/-! ## Blocks -/

theorem stateFrom_served (node : Node Rc Wd) (fuel slot tries : Nat) (st : BState)
    (h : stateFrom node fuel slot tries = some (.ok st)) : ∃ s, node.state s = some st := by
  induction fuel generalizing slot tries with
  | zero => cases h
  | succ k ih =>
    unfold stateFrom at h
    split at h
    · next st' hst =>
      split at h
      · split at h
        · cases h
        · exact ih _ _ h
      · split at h
        · cases h
        · cases h; exact ⟨_, hst⟩
    · split at h
      · cases h
      · split at h
        · cases h
        · exact ih _ _ h

theorem stateForNext_served (node : Node Rc Wd) (fuel slot : Nat) (st : BState)
    (h : stateForNext node fuel slot = some (.ok st)) : ∃ s, node.state s = some st := by
  unfold stateForNext at h
  split at h
  · cases h
  · exact stateFrom_served _ _ _ _ _ h

theorem electra_some (x : Option (Signed Wd)) (b : Signed Wd) (h : electra x = some b) :
    x = some b ∧ b.beacon.fork = .electra := by
  unfold electra at h
  rw [Option.filter_eq_some_iff] at h
  exact ⟨h.1, by simpa using h.2⟩

theorem electra_of (b : Signed Wd) (h : b.beacon.fork = .electra) : electra (some b) = some b := by
  unfold electra
  rw [Option.filter_eq_some_iff]
  exact ⟨rfl, by simp [h]⟩

theorem findFrom_electra (node : Node Rc Wd) (left slot : Nat) (b : Signed Wd) (h : findFrom node left slot = .ok b) :
    b.beacon.fork = .electra := by
  induction left generalizing slot with
  | zero =>
    unfold findFrom at h
    split at h
    · next x hx => cases h; exact (electra_some _ _ hx).2
    · cases h
  | succ k ih =>
    unfold findFrom at h
    split at h
    · next x hx => cases h; exact (electra_some _ _ hx).2
    · simp only at h
      split at h
      · cases h
      · exact ih _ h

/-- What holds of the generator between blocks. -/
def Anchored (P : List Summary → Prop) (b : Builder) : Prop :=
  (b.cache = [] ∨ b.cache = b.summaries) ∧ (b.summaries = [] ∨ P b.summaries)

theorem proof_deneb (H : Id → Id → Id) (slot : UInt64) (batch : Batch) (fork : HeaderValidator.Fork)
    (t : HeaderValidator.Block fork) (p : HeaderProof) (hf : fork = .electra) (h : proofFor H slot batch fork t = some p) :
    ∃ q, p = .deneb q := by
  subst hf
  simp only [proofFor, Option.map_eq_some_iff] at h
  obtain ⟨q, _, rfl⟩ := h
  exact ⟨q, rfl⟩

theorem deneb_nil (H : Id → Id → Id) (net : HeaderValidator.Net) (t : HeaderValidator.Trusted) (h : HeaderValidator.Header)
    (q : HeaderValidator.DenebProof) : (validate H net t [] (fun _ => some []) h (.deneb q)).1 ≠ .accept := by
  have hs : (HeaderValidator.getSummary [] (fun _ => some []) q.slot.toNat).1 = none := by
    unfold HeaderValidator.getSummary
    split <;> simp
  simp only [validate, HeaderValidator.verifyPostDeneb, hs, HeaderValidator.verifySummaries]
  split
  · simp
  · split <;> simp

theorem round_good (i : Inputs Tx Rc Wd) (P : List Summary → Prop) (node : Node Rc Wd)
    (hP : ∀ slot st, node.state slot = some st → P st.summaries) (fuel : Nat) (b b' : Builder) (n : Nat) (f : Full Tx Rc Wd)
    (hb : Anchored P b) (h : round i node fuel b n = some (.ok (f, b'))) :
    GoodBlock i b'.summaries n f ∧ P b'.summaries ∧ Anchored P b' ∧ b'.index = b.index := by
  unfold round at h
  obtain ⟨x, hx, h⟩ := run_ok h
  obtain ⟨b1, hb1, h⟩ := run_ok h
  obtain ⟨f', hf, h⟩ := run_ok h
  obtain ⟨cache, hv, h⟩ := run_ok h
  have hx := findFrom_electra node 5 b.slot x (some_ok hx)
  have hf := some_ok hf
  have hv := some_ok hv
  split at h
  · cases h
  · cases h
    have h1 : Anchored P b1 ∧ b1.index = b.index := by
      unfold updateAnchors at hb1
      split at hb1
      · cases hb1
      · split at hb1
        · cases hb1; exact ⟨hb, rfl⟩
        · obtain ⟨st, hst, hb1⟩ := run_ok hb1
          cases hb1
          obtain ⟨s, hs⟩ := stateForNext_served node fuel _ st hst
          exact ⟨⟨.inl rfl, .inr (hP s st hs)⟩, rfl⟩
    have hn : f.headerWithProof.1.number.toNat = n ∧ ∃ q, f.headerWithProof.2 = .deneb q := by
      unfold buildBlock at hf
      split at hf
      · cases hf
      · next hn =>
        obtain ⟨r, hr, hf⟩ := bind_ok hf
        obtain ⟨⟨hd, p⟩, body⟩ := r
        have hvn := (C70_valid i.lib _ _ _ p hd body hr).2.1
        have hp := ((C70_exact i.lib _ _ _ p hd body).mp hr).2
        split at hf
        · cases hf
        · cases hf
          exact ⟨by rw [hvn]; exact Decidable.not_not.mp hn, proof_deneb _ _ _ _ _ _ hx hp⟩
    obtain ⟨hg, hc⟩ := validateBlock_ok i b1.summaries b1.cache cache f n h1.1.1 hn.1 hv
    have hPs : P b1.summaries := by
      rcases h1.1.2 with h0 | hp
      · exfalso
        obtain ⟨q, hq⟩ := hn.2
        have := hg.proof
        rw [h0, hq] at this
        exact deneb_nil _ _ _ _ _ this
      · exact hp
    exact ⟨hg, hPs, ⟨hc, .inr hPs⟩, h1.2⟩

theorem writeLoop_good (i : Inputs Tx Rc Wd) (P : List Summary → Prop) (nodes : Nat → Node Rc Wd)
    (hP : ∀ n slot st, (nodes n).state slot = some st → P st.summaries) (fuel : Nat) (ns : List Nat) (b b' : Builder)
    (w w' : Writer) (hb : Anchored P b) (h : writeLoop i nodes fuel ns b w = some (.ok (w', b'))) :
    ∃ ts : List (Full Tx Rc Wd), ts.length = ns.length ∧
      (∀ (k : Nat) f, ts[k]? = some f → ∃ n s, ns[k]? = some n ∧ P s ∧ GoodBlock i s n f) ∧
      w.appendAll (e2hsFormat i.codecs) (fullHash i) ts = .ok w' ∧ Anchored P b' ∧ b'.index = b.index := by
  induction ns generalizing b w with
  | nil =>
    cases h
    exact ⟨[], rfl, fun k f hk => by simp at hk, rfl, hb, rfl⟩
  | cons n ns ih =>
    unfold writeLoop at h
    obtain ⟨⟨f, b1⟩, hr, h⟩ := run_ok h
    obtain ⟨w1, hw, h⟩ := run_ok h
    obtain ⟨hg, hp, ha, hi⟩ := round_good i P (nodes n) (hP n) fuel b b1 n f hb hr
    obtain ⟨ts, h1, h2, h3, h4, h5⟩ := ih b1 w1 ha h
    refine ⟨f :: ts, by simp [h1], fun k g hk => ?_, ?_, h4, h5.trans hi⟩
    · cases k with
      | zero => simp at hk; subst hk; exact ⟨n, _, rfl, hp, hg⟩
      | succ k => exact h2 k g (by simpa using hk)
    · show (w.append _ _ f).bind _ = _
      have hw : w.append (e2hsFormat i.codecs) (fullHash i) f = .ok w1 := some_ok hw
      rw [hw]
      exact h3

theorem finish_nonempty (w : Writer) (bytes : Bytes) (epoch : UInt64) (hash : Bytes) (h : w.finish = .ok (bytes, epoch, hash)) :
    ∃ x : Id, hash = x.bytes.take 4 := by
  unfold Archive.Writer.finish at h
  split at h
  · cases h
  · split at h
    · cases h
    · obtain ⟨out, _, h⟩ := bind_ok h
      split at h
      · cases h
      · next x _ => cases h; exact ⟨x, rfl⟩

theorem bytes_take4 (x : Id) : (x.bytes.take 4).length = 4 := by
  rw [List.length_take]
  have : x.bytes.length = 32 := by simp [Id.bytes, toBe_length]
  omega

theorem buildFile_good (i : Inputs Tx Rc Wd) (hh : Codec.Lossless i.codecs.headerWithProof)
    (hbd : Codec.Lossless i.codecs.body) (hr : Codec.Lossless i.codecs.receipts) (P : List Summary → Prop)
    (nodes : Nat → Node Rc Wd) (hP : ∀ n slot st, (nodes n).state slot = some st → P st.summaries) (fuel : Nat)
    (b b' : Builder) (bytes : Bytes) (epoch : UInt64) (hash : Bytes) (hb : Anchored P b)
    (h : buildFile i nodes fuel b = some (.ok ((bytes, epoch, hash), b'))) :
    epoch.toNat = b.index ∧ b.index * 8192 + 8192 < 2 ^ 64 ∧ GoodFile i P b.index (fileName epoch.toNat hash) bytes ∧
      Anchored P b' ∧ b'.index = b.index + 1 ∧ bytes ≠ [] := by
  unfold buildFile at h
  split at h
  · cases h
  · next hlt =>
    have hlt : b.index * 8192 + 8192 < 2 ^ 64 := Nat.lt_of_not_le hlt
    obtain ⟨w, hw, h⟩ := run_ok h
    obtain ⟨⟨w', b2⟩, hl, h⟩ := run_ok h
    obtain ⟨out, ho, h⟩ := run_ok h
    cases h
    have hw := some_ok hw
    have ho := some_ok ho
    obtain ⟨ts, h1, h2, h3, h4, h5⟩ := writeLoop_good i P nodes hP fuel _ b b2 w w' hb hl
    rw [List.length_range'] at h1
    have hwb : writeBlocks i.codecs (fullHash i) (UInt64.ofNat b.index) ts = .ok w' := by
      unfold writeBlocks
      rw [hw]
      exact h3
    have hidx : (UInt64.ofNat b.index).toNat = b.index := UInt64.toNat_ofNat_of_lt' (show _ < 2 ^ 64 by omega)
    obtain ⟨last, hlast⟩ : ∃ last, ts.getLast? = some last := by
      cases ts with
      | nil => simp at h1
      | cons t ts => exact ⟨_, List.getLast?_eq_some_getLast (by simp)⟩
    obtain ⟨bytes', bi, h6, h7, h8, _⟩ := (C39_writer_finish i.codecs hh hbd hr (fullHash i) (UInt64.ofNat b.index) ts w' hwb
      (written_small i hh hbd hr _ ts w' hwb h1) (by rw [hidx]; exact Nat.lt_of_le_of_lt (Nat.le_add_right _ _) hlt)).2 last h1 hlast
    rw [h6] at ho
    cases ho
    obtain ⟨digits, hname⟩ := fileName_named b.index ((fullHash i last).bytes.take 4) (bytes_take4 _)
    refine ⟨hidx, hlt, ⟨ts, bi, last, digits, h1, h7, by rw [h8, hidx], ?_, hlast, by rw [hidx]; exact hname⟩, h4, by
      show b2.index + 1 = b.index + 1; rw [h5], ?_⟩
    · intro k f hk
      obtain ⟨n, s, hn, hs, hg⟩ := h2 k f hk
      rw [List.getElem?_range' (by
        rw [List.getElem?_eq_some_iff] at hn
        obtain ⟨hk, _⟩ := hn
        simpa using hk)] at hn
      cases hn
      rw [Nat.one_mul] at hg
      exact ⟨s, hs, hg⟩
    · rintro rfl
      obtain ⟨rs, _, hrs, hlen, _⟩ := C39_e2hs_strict i.codecs [] _ h7
      cases rs with
      | nil => simp at hlen
      | cons r rs =>
        have := congrArg List.length hrs
        simp [E2store.fileBytes, E2store.recordBytes] at this

end Verif.Props
