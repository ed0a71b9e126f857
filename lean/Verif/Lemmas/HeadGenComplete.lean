import Verif.Lemmas.HeadGenSys

/-! # Lemmas: the head generator with honest nodes -/

namespace Verif.Props
open Verif Verif.HeadGen Verif.HeadSpec Verif.E2hsSpec
open Verif.E2store (Res Short)
open Verif.E2hsGen (Inputs Signed Full Batch proofFor parisAt validateBlock fullHash bind_ok map_ok written_small proof_ok
  chainBlock validateBlock_of)
open Verif.HeaderValidator (Summary HeaderProof containerRoot validate)
open Verif.Archive (E2hs e2hsFormat versionEntry Codec Writer)

variable {Tx Rc Wd : Type}

attribute [local irreducible] targetChunk divCeil upload maxBackfill

section
variable {i : Inputs Tx Rc Wd} {c : Chain Tx Rc Wd} {a : Beacons Wd}

theorem slot_lt (hc : Canon i c a) (m n : Nat) (h1 : a.lo ≤ m) (h2 : m < n) (h3 : n ≤ a.hi) : a.slotOf m < a.slotOf n := by
  induction n with
  | zero => omega
  | succ n ih =>
    have hg := (hc.gap n (by omega) (by omega)).1
    by_cases hmn : m = n
    · subst hmn; exact hg
    · exact Nat.lt_trans (ih (by omega) (by omega)) hg

theorem slot_le (hc : Canon i c a) (m n : Nat) (h1 : a.lo ≤ m) (h2 : m ≤ n) (h3 : n ≤ a.hi) : a.slotOf m ≤ a.slotOf n := by
  by_cases hmn : m = n
  · subst hmn; exact Nat.le_refl _
  · exact Nat.le_of_lt (slot_lt hc m n h1 (by omega) h3)

theorem honest_block (hc : Canon i c a) {fin : Nat} {node : Node Rc Wd} (hn : Follows i c a fin node) (n : Nat)
    (h1 : a.lo ≤ n) (h2 : n ≤ a.hi) : electra (node.block (a.slotOf n)) = some (a.signed n) := by
  rw [hn.block n h1 h2]
  exact electra_of _ (hc.electra n h1 h2)

theorem findFrom_honest (hc : Canon i c a) {fin : Nat} {node : Node Rc Wd} (hn : Follows i c a fin node) (n : Nat)
    (h1 : a.lo ≤ n) (h2 : n ≤ a.hi) (left slot : Nat) (h3 : slot ≤ a.slotOf n) (h4 : a.slotOf n ≤ slot + left)
    (h5 : slot = a.slotOf n ∨ a.lo < n ∧ a.slotOf (n - 1) < slot) : findFrom node left slot = .ok (a.signed n) := by
  induction left generalizing slot with
  | zero =>
    have : slot = a.slotOf n := by omega
    subst this
    unfold findFrom
    rw [honest_block hc hn n h1 h2]
  | succ k ih =>
    by_cases hs : slot = a.slotOf n
    · subst hs
      unfold findFrom
      rw [honest_block hc hn n h1 h2]
    · obtain ⟨h6, h7⟩ : a.lo < n ∧ a.slotOf (n - 1) < slot := by
        rcases h5 with h | h
        · exact absurd h hs
        · exact h
      have hlo := slot_le hc a.lo (n - 1) (Nat.le_refl _) (by omega) (by omega)
      have hhi := slot_le hc n a.hi h1 h2 (Nat.le_refl _)
      have hnone : node.block slot = none := by
        refine hn.skipped slot (by omega) (by omega) fun m hm1 hm2 hm => ?_
        by_cases hmn : m < n
        · have := slot_le hc m (n - 1) hm1 (by omega) (by omega)
          omega
        · have := slot_le hc n m h1 (by omega) hm2
          omega
      unfold findFrom
      rw [hnone]
      simp only [electra, Option.filter_none]
      have hb := hc.bound.1
      rw [if_neg (by omega)]
      exact ih (slot + 1) (by omega) (by omega) (.inr ⟨h6, by omega⟩)

theorem firstFinalized_honest (hc : Canon i c a) {fin first : Nat} {node : Node Rc Wd} (hn : Follows i c a fin node)
    (hf : FirstOfPeriod a fin first) : firstFinalized node = .ok (a.signed first) := by
  obtain ⟨f1, f2, f3, f4⟩ := hf
  obtain ⟨r1, r2⟩ := hn.range
  have hs := hc.slot fin r1 r2
  have hg := hc.gap (first - 1) (by omega) (by omega)
  rw [Nat.sub_add_cancel (by omega)] at hg
  unfold firstFinalized
  rw [hn.finalized, electra_of _ (hc.electra fin r1 r2)]
  simp only
  rw [hs]
  unfold findFirst firstSlot
  have e1 := Nat.div_add_mod (a.slotOf fin) 8192
  have e2 := Nat.div_add_mod (a.slotOf first) 8192
  have e3 := Nat.div_add_mod (a.slotOf (first - 1)) 8192
  have e4 := Nat.mod_lt (a.slotOf (first - 1)) (show 0 < 8192 by omega)
  refine findFrom_honest hc hn first (by omega) (by omega) 5 _ (by omega) (by omega) (.inr ⟨f1, by omega⟩)

theorem amount_honest (hc : Canon i c a) {fin first : Nat} {node : Node Rc Wd} (hn : Follows i c a fin node)
    (hf : FirstOfPeriod a fin first) (index : Nat) (h : index * 8192 ≤ first) :
    amount node index = .ok (first - index * 8192) := by
  have h1 := hf.1
  have h2 := hf.2.1
  have h3 := hn.range
  unfold amount
  rw [firstFinalized_honest hc hn hf]
  simp only [Res.bind]
  rw [hc.number first (by omega) (by omega), if_neg (by omega)]

/-- The builder is ready for block `n`. -/
structure At (i : Inputs Tx Rc Wd) (c : Chain Tx Rc Wd) (a : Beacons Wd) (n : Nat) (b : Builder) : Prop where
  range : a.lo ≤ n ∧ n ≤ a.hi
  slot : b.slot ≤ a.slotOf n ∧ a.slotOf n ≤ b.slot + 5
  after : b.slot = a.slotOf n ∨ a.lo < n ∧ a.slotOf (n - 1) < b.slot
  cache : b.cache = [] ∨ b.cache = b.summaries
  anchor : b.anchor = 0 ∨ ∃ p, 759 ≤ p ∧ b.anchor = p - 758 ∧ b.batch = c.batch (p + 1) ∧
    ∀ q, 758 ≤ q → q ≤ p → ∃ s, b.summaries[q - 758]? = some s ∧
      s.blockSummaryRoot = containerRoot i.H (c.batch (q + 1)).blockRoots.toList

theorem stateForNext_honest (hc : Canon i c a) {fin : Nat} {node : Node Rc Wd} (hn : HonestNode i c a fin node) (n : Nat)
    (h1 : a.lo ≤ n) (h2 : n ≤ a.hi) (h3 : (a.slotOf n / 8192 + 1) * 8192 ≤ a.slotOf fin) (fuel : Nat) (hf : 0 < fuel) :
    ∃ st, stateForNext node fuel (a.slotOf n) = some (.ok st) ∧ StateOf i c (a.slotOf n / 8192) st := by
  have hlo := slot_le hc a.lo n (Nat.le_refl _) h1 h2
  have hhi := slot_le hc n a.hi h1 h2 (Nat.le_refl _)
  obtain ⟨st, hst, hso⟩ := hn.state (a.slotOf n / 8192) (Nat.div_le_div_right hlo) h3
  refine ⟨st, ?_, hso⟩
  have hb := hc.bound.1
  unfold stateForNext
  rw [if_neg (by omega)]
  have e : firstSlot (a.slotOf n + 8192) = (a.slotOf n / 8192 + 1) * 8192 := by
    unfold firstSlot
    rw [Nat.add_div_right _ (by omega)]
  rw [e]
  cases fuel with
  | zero => omega
  | succ k =>
    unfold stateFrom
    rw [hst]
    simp only
    rw [if_neg (by rw [hso.slot]; omega), if_neg (by rw [hso.slot]; simp)]

theorem round_honest (hok : ChainOk i c) (hp : i.net.parisBlock.toNat = 15537394) (hc : Canon i c a) {fin : Nat}
    {node : Node Rc Wd} (hn : HonestNode i c a fin node) (n : Nat) (b : Builder) (hb : At i c a n b) (hlast : n < a.hi)
    (h3 : (a.slotOf n / 8192 + 1) * 8192 ≤ a.slotOf fin) (fuel : Nat) (hf : 0 < fuel) :
    ∃ p b', round i node fuel b n = some (.ok (chainBlock c n p, b')) ∧ At i c a (n + 1) b' ∧ b'.index = b.index := by
  obtain ⟨r1, r2⟩ := hb.range
  have hlo := slot_le hc a.lo n (Nat.le_refl _) r1 r2
  have hhi := slot_le hc n a.hi r1 r2 (Nat.le_refl _)
  have hlate := hc.late
  have hmerge := hc.merge
  have hbound := hc.bound
  have hfind := findFrom_honest hc hn.toFollows n r1 r2 5 b.slot hb.slot.1 hb.slot.2 hb.after
  have hslot := hc.slot n r1 r2
  have hx := hc.block n r1 r2
  have hnum := hc.number n r1 r2
  -- the anchors
  obtain ⟨b1, hu, hu1, hu2, hu3, hu4⟩ : ∃ b1, updateAnchors node fuel b (a.slotOf n) = some (.ok b1) ∧ b1.index = b.index ∧
      (b1.cache = [] ∨ b1.cache = b1.summaries) ∧ b1.batch = c.batch (a.slotOf n / 8192 + 1) ∧
      (759 ≤ a.slotOf n / 8192 ∧ b1.anchor = a.slotOf n / 8192 - 758 ∧
        ∀ q, 758 ≤ q → q ≤ a.slotOf n / 8192 → ∃ s, b1.summaries[q - 758]? = some s ∧
        s.blockSummaryRoot = containerRoot i.H (c.batch (q + 1)).blockRoots.toList) := by
    have hidx : ChainHead.historicalSummaryIndex (a.slotOf n) = some (a.slotOf n / 8192 - 758) := by
      unfold ChainHead.historicalSummaryIndex ChainHead.capellaSlot
      rw [if_neg (by omega)]
      exact congrArg some (by omega)
    unfold updateAnchors
    rw [hidx]
    simp only
    by_cases heq : a.slotOf n / 8192 - 758 = b.anchor
    · rw [if_pos heq]
      rcases hb.anchor with h0 | ⟨p, p1, p2, p3, p4⟩
      · omega
      · have : p = a.slotOf n / 8192 := by omega
        subst this
        exact ⟨b, rfl, rfl, hb.cache, p3, p1, p2, p4⟩
    · rw [if_neg heq]
      obtain ⟨st, hst, hso⟩ := stateForNext_honest hc hn n r1 r2 h3 fuel hf
      rw [hst]
      exact ⟨_, rfl, rfl, .inl rfl, hso.batch, by omega, rfl, hso.summaries⟩
  obtain ⟨hu4, hu5, hu6⟩ := hu4
  obtain ⟨p, hpf, hv⟩ := proof_ok i c (a.slotOf n / 8192 + 1) n (a.signed n) hx hnum (hok.number n (by omega)) hp (by omega)
    b1.summaries (fun _ => hu6 (a.slotOf n / 8192) (by omega) (Nat.le_refl _))
  obtain ⟨cache', hv1, hv2⟩ := validateBlock_of i c hok n p b1.summaries b1.cache hu2 hv
  have hbuild : buildBlock i node b1 n (a.signed n) = .ok (chainBlock c n p) := by
    have hblk : BlockOf i.lib (a.signed n).beacon (c.header n) (c.body n) := by
      have := hx.block
      rw [hnum] at this
      exact this
    have := (C70_exact i.lib (fun k batch => proofFor i.H k.slot batch (a.signed n).beacon.fork (a.signed n).tree)
      (a.signed n).beacon (c.batch (a.slotOf n / 8192 + 1)) p (c.header n) (c.body n)).mpr ⟨hblk, hpf⟩
    unfold buildBlock
    rw [if_neg (by simp [hnum]), hu3, this]
    simp only [Res.bind, hn.receipts n r1 r2]
    rfl
  have hg := hc.gap n r1 hlast
  refine ⟨p, { b1 with cache := cache', slot := a.slotOf n + 1 }, ?_, ⟨⟨by omega, hlast⟩, ⟨by simp; omega, by simp; omega⟩,
    .inr ⟨by omega, by simp⟩, hv2, .inr ⟨a.slotOf n / 8192, hu4, hu5, hu3, hu6⟩⟩, hu1⟩
  unfold round findFirst
  rw [hfind]
  simp only [Run.bind]
  rw [hslot, hu]
  simp only [hbuild, hv1]
  rw [if_neg (by omega)]

theorem writeLoop_honest (hok : ChainOk i c) (hp : i.net.parisBlock.toNat = 15537394) (hc : Canon i c a) (fuel : Nat)
    (hf : 0 < fuel) (nodes : Nat → Node Rc Wd) (k : Nat) : ∀ (n : Nat) (b : Builder), At i c a n b → n + k ≤ a.hi →
    (∀ j, n ≤ j → j < n + k → ∃ fin, HonestNode i c a fin (nodes j) ∧ (a.slotOf j / 8192 + 1) * 8192 ≤ a.slotOf fin) →
    ∃ (ps : List HeaderProof) (b' : Builder), ps.length = k ∧ At i c a (n + k) b' ∧ b'.index = b.index ∧
      ∀ w w' : Writer, w.appendAll (e2hsFormat i.codecs) (fullHash i) ((List.range' n k).zipWith (chainBlock c) ps) = .ok w' →
        writeLoop i nodes fuel (List.range' n k) b w = some (.ok (w', b')) := by
  induction k with
  | zero =>
    intro n b hb _ _
    refine ⟨[], b, rfl, hb, rfl, fun w w' h => ?_⟩
    cases h
    rfl
  | succ k ih =>
    intro n b hb hk hnodes
    obtain ⟨fin, hn, h3⟩ := hnodes n (Nat.le_refl _) (by omega)
    obtain ⟨p, b1, hr, hb1, hi1⟩ := round_honest hok hp hc hn n b hb (by omega) h3 fuel hf
    obtain ⟨ps, b', h1, h2, h4, h5⟩ := ih (n + 1) b1 hb1 (by omega) fun j hj1 hj2 => hnodes j (by omega) (by omega)
    refine ⟨p :: ps, b', by simp [h1], by rw [← Nat.add_assoc, Nat.add_right_comm]; exact h2, h4.trans hi1, fun w w' hw => ?_⟩
    rw [List.range'_succ, List.zipWith_cons_cons] at hw
    obtain ⟨w1, hw1, hw⟩ := bind_ok (show (w.append _ _ _).bind _ = _ from hw)
    rw [List.range'_succ]
    unfold writeLoop
    rw [hr]
    simp only [Run.bind, hw1]
    exact h5 w1 w' hw

theorem buildFile_honest (hok : ChainOk i c) (hfits : Fits i c) (hp : i.net.parisBlock.toNat = 15537394) (hc : Canon i c a)
    (hh : Codec.Lossless i.codecs.headerWithProof) (hbd : Codec.Lossless i.codecs.body)
    (hr : Codec.Lossless i.codecs.receipts) (fuel : Nat) (hf : 0 < fuel) (nodes : Nat → Node Rc Wd) (b : Builder)
    (hb : At i c a (b.index * 8192) b) (hk : b.index * 8192 + 8192 ≤ a.hi)
    (hnodes : ∀ j, b.index * 8192 ≤ j → j < b.index * 8192 + 8192 →
      ∃ fin, HonestNode i c a fin (nodes j) ∧ (a.slotOf j / 8192 + 1) * 8192 ≤ a.slotOf fin) :
    ∃ bytes epoch hash b', buildFile i nodes fuel b = some (.ok ((bytes, epoch, hash), b')) ∧ b'.index = b.index + 1 ∧
      At i c a (b'.index * 8192) b' ∧ ChainFile i c b.index bytes ∧ epoch.toNat = b.index ∧ hash.length = 4 ∧ bytes ≠ [] := by
  have hbound := hc.bound.2
  generalize hm : b.index * 8192 = m at *
  obtain ⟨ps, b1, hps, hat, hi1, hloop⟩ := writeLoop_honest hok hp hc fuel hf nodes 8192 m b hb hk hnodes
  have hlen : ((List.range' m 8192).zipWith (chainBlock c) ps).length = 8192 := by
    rw [List.length_zipWith, List.length_range', hps]; omega
  have hget : ∀ k < 8192, ∃ p, ((List.range' m 8192).zipWith (chainBlock c) ps)[k]? = some (chainBlock c (m + k) p) := by
    intro k hk
    obtain ⟨p, hp⟩ : ∃ p, ps[k]? = some p := ⟨ps[k]'(by omega), List.getElem?_eq_getElem _⟩
    refine ⟨p, ?_⟩
    rw [List.getElem?_zipWith, List.getElem?_range' hk, hp, Nat.one_mul]
  generalize (List.range' m 8192).zipWith (chainBlock c) ps = ts at hloop hlen hget
  have hshort : Short (ts.flatMap (e2hsRecords i.codecs)) := by
    intro r hmem
    rw [List.mem_flatMap] at hmem
    obtain ⟨t, ht, hmem⟩ := hmem
    obtain ⟨k, hk⟩ := List.mem_iff_getElem?.mp ht
    have hk8 : k < 8192 := by
      rw [List.getElem?_eq_some_iff] at hk
      obtain ⟨h, _⟩ := hk
      omega
    obtain ⟨p, hp⟩ := hget k hk8
    rw [hk] at hp
    cases hp
    have h1 := hfits.header (m + k) p
    have h2 := hfits.body (m + k)
    have h3 := hfits.receipts (m + k)
    simp only [e2hsRecords, chainBlock, List.mem_cons, List.not_mem_nil, or_false] at hmem
    rcases hmem with rfl | rfl | rfl <;> simp only <;> omega
  obtain ⟨w, hwb⟩ := (C39_writer_ok i.codecs hh hbd hr (fullHash i) (UInt64.ofNat b.index) ts).mpr hshort
  have hidx : (UInt64.ofNat b.index).toNat = b.index := UInt64.toNat_ofNat_of_lt' (show _ < 2 ^ 64 by omega)
  obtain ⟨last, hlast⟩ : ∃ last, ts.getLast? = some last := by
    cases ts with
    | nil => simp at hlen
    | cons t ts => exact ⟨_, List.getLast?_eq_some_getLast (by simp)⟩
  obtain ⟨bytes, bi, h4, h5, h6, _⟩ := (C39_writer_finish i.codecs hh hbd hr (fullHash i) (UInt64.ofNat b.index) ts w hwb
    (written_small i hh hbd hr _ ts w hwb hlen) (by rw [hidx]; omega)).2 last hlen hlast
  refine ⟨bytes, UInt64.ofNat b.index, (fullHash i last).bytes.take 4, { b1 with index := b1.index + 1 }, ?_, by
    show b1.index + 1 = b.index + 1; rw [hi1], ?_, ⟨ts, bi, hlen, h5, by rw [hm]; exact hget⟩, hidx, bytes_take4 _, ?_⟩
  · unfold buildFile
    rw [hm, if_neg (by omega)]
    unfold writeBlocks at hwb
    obtain ⟨w0, hw0, hwb⟩ := bind_ok hwb
    rw [hw0]
    show Run.bind (writeLoop i nodes fuel (List.range' m 8192) b w0) _ = _
    rw [hloop w0 w hwb]
    show Run.bind (some w.finish) _ = _
    rw [h4]
    rfl
  · show At i c a ((b1.index + 1) * 8192) _
    have : (b1.index + 1) * 8192 = m + 8192 := by rw [hi1, Nat.add_mul, hm]
    rw [this]
    exact ⟨hat.range, hat.slot, hat.after, hat.cache, hat.anchor⟩
  · rintro rfl
    obtain ⟨rs, _, hrs, hlen, _⟩ := C39_e2hs_strict i.codecs [] _ h5
    cases rs with
    | nil => simp at hlen
    | cons r rs =>
      have := congrArg List.length hrs
      simp [E2store.fileBytes, E2store.recordBytes] at this

theorem period_lt (hc : Canon i c a) {fin first : Nat} (hf : FirstOfPeriod a fin first) (hfin : fin ≤ a.hi) (j : Nat)
    (h1 : a.lo ≤ j) (h2 : j < first) : (a.slotOf j / 8192 + 1) * 8192 ≤ a.slotOf fin := by
  obtain ⟨f1, f2, f3, f4⟩ := hf
  have h := slot_le hc j (first - 1) h1 (by omega) (by omega)
  have := Nat.div_le_div_right (c := 8192) h
  have e := Nat.div_add_mod (a.slotOf fin) 8192
  omega

/-- A round of the loop: the next file, if all its blocks are in finished periods. -/
theorem tick_honest (hok : ChainOk i c) (hfits : Fits i c) (hp : i.net.parisBlock.toNat = 15537394) (hc : Canon i c a)
    (hh : Codec.Lossless i.codecs.headerWithProof) (hbd : Codec.Lossless i.codecs.body)
    (hr : Codec.Lossless i.codecs.receipts) (fuel : Nat) (hf : 0 < fuel) (fin first : Nat) (node : Node Rc Wd)
    (nodes : Nat → Node Rc Wd) (s : S3) (hn : HonestNode i c a fin node) (hfst : FirstOfPeriod a fin first)
    (hns : ∀ j, ∃ fin', fin ≤ fin' ∧ HonestNode i c a fin' (nodes j)) (hs : S3.Works s) (b : Builder) (bucket : Bucket)
    (hb : At i c a (b.index * 8192) b) (hle : b.index * 8192 ≤ first) :
    if b.index * 8192 + 8192 ≤ first then
      ∃ b' key bytes, HeadGen.tick i fuel node nodes s b bucket = (some b', bucket.put key bytes) ∧ b'.index = b.index + 1 ∧
        At i c a (b'.index * 8192) b' ∧ KeyFor key b.index ∧ ChainFile i c b.index bytes
    else HeadGen.tick i fuel node nodes s b bucket = (some b, bucket) := by
  unfold HeadGen.tick
  rw [amount_honest hc hn.toFollows hfst b.index hle]
  simp only
  obtain ⟨r1, r2⟩ := hn.range
  have hfirst : first ≤ a.hi := Nat.le_trans hfst.2.1 r2
  by_cases hcov : b.index * 8192 + 8192 ≤ first
  · have hge : first - b.index * 8192 ≥ 8192 := by omega
    rw [if_pos hcov, if_pos hge]
    have hlo := hb.range.1
    obtain ⟨bytes, epoch, hash, b', h1, h2, h3, h4, h5, h6, h7⟩ := buildFile_honest hok hfits hp hc hh hbd hr fuel hf nodes b hb
      (Nat.le_trans hcov hfirst) (by
        intro j hj1 hj2
        obtain ⟨fin', hle', hn'⟩ := hns j
        refine ⟨fin', hn', Nat.le_trans (period_lt hc hfst r2 j (Nat.le_trans hlo hj1) (Nat.lt_of_lt_of_le hj2 hcov)) ?_⟩
        exact slot_le hc fin fin' r1 hle' hn'.range.2)
    rw [h1]
    simp only
    rw [upload_works s bucket _ bytes h7 hs, h5]
    obtain ⟨digits, hname⟩ := fileName_named b.index hash h6
    exact ⟨b', _, bytes, rfl, h2, h3, ⟨_, _, hname⟩, h4⟩
  · have hge : ¬ first - b.index * 8192 ≥ 8192 := by omega
    rw [if_neg hcov, if_neg hge]

theorem findSlot_honest (hok : ChainOk i c) (hp : i.net.parisBlock.toNat = 15537394) (hc : Canon i c a) {fin : Nat}
    {node : Node Rc Wd} (hn : Follows i c a fin node) (n : Nat) (h1 : a.lo ≤ n) (h2 : n < a.hi) :
    findSlot i node n = .ok (a.slotOf n) := by
  have hb := hc.bound.2
  have hm := hc.merge
  have hx := (hc.block (n + 1) (by omega) (by omega)).block.carries.parentRoot
  rw [hc.number (n + 1) (by omega) (by omega), hc.electra (n + 1) (by omega) (by omega), hc.parent n h1 h2] at hx
  unfold findSlot
  rw [if_neg (by omega), hn.header (n + 1) (by omega) (by omega)]
  simp only
  have hpar : parisAt i.net (c.header (n + 1)).number.toNat = true := by
    rw [hok.number (n + 1) (by omega)]
    unfold parisAt
    simp
    omega
  rw [hpar]
  simp only [Bool.not_true, Bool.false_eq_true, if_false]
  rw [hx]
  simp only [Fork.hasBlobs, if_true, hn.root n h1 (by omega)]
  rw [electra_of _ (hc.electra n h1 (by omega))]
  simp only [hc.slot n h1 (by omega)]

theorem start_honest (hok : ChainOk i c) (hp : i.net.parisBlock.toNat = 15537394) (hc : Canon i c a) {fin first : Nat}
    {node : Node Rc Wd} (hn : Follows i c a fin node) (hfst : FirstOfPeriod a fin first) (pages : List Page)
    (key : List Char) (m : Nat) (hl : lastFileName pages = .ok key) (hk : KeyFor key m) (h1 : a.lo ≤ (m + 1) * 8192)
    (h2 : (m + 1) * 8192 < a.hi) (h3 : (m + 1) * 8192 ≤ first) (h4 : first < (m + 1) * 8192 + maxBackfill) :
    ∃ b, HeadGen.start i pages node = .ok b ∧ b.index = m + 1 ∧ At i c a ((m + 1) * 8192) b ∧ b.anchor = 0 := by
  have hb := hc.bound.2
  have hm : m + 1 < 2 ^ 64 := by omega
  unfold HeadGen.start
  rw [hl]
  simp only [Res.bind]
  rw [extract_named key m hk (by omega)]
  simp only
  rw [if_neg (by omega)]
  unfold newBuilder
  rw [if_neg (by omega), findSlot_honest hok hp hc hn _ h1 h2]
  simp only [Res.map, Res.bind]
  rw [amount_honest hc hn hfst _ h3]
  simp only
  rw [if_pos (by omega)]
  exact ⟨_, rfl, rfl, ⟨⟨h1, by omega⟩, ⟨Nat.le_refl _, by simp⟩, .inl rfl, .inl rfl, .inl rfl⟩, rfl⟩

end

/-! ## Listings -/

theorem lastKey_all (pages : List Page) (last : Option (List Char)) (hm : ∀ p ∈ pages.dropLast, p.truncated = true ∧ p.token = true)
    (hl : ∀ p, pages.getLast? = some p → p.truncated = false) :
    lastKey pages last = .ok ((pages.flatMap Page.keys).getLast?.or last) := by
  induction pages generalizing last with
  | nil => rfl
  | cons p ps ih =>
    unfold lastKey
    cases ps with
    | nil =>
      have := hl p rfl
      simp [this]
    | cons q qs =>
      have h := hm p (by simp)
      simp only [h.1, h.2, if_true]
      rw [ih _ (fun p' hp' => hm p' (by simp only [List.dropLast_cons_cons]; exact List.mem_cons_of_mem _ hp'))
        (fun p' hp' => hl p' (by rw [List.getLast?_cons_cons]; exact hp'))]
      rw [List.flatMap_cons (x := p), List.getLast?_append]
      simp [Option.or_assoc]

theorem listing_last (b : Bucket) (pages : List Page) (lo m : Nat) (hb : Holds b lo (m + 1)) (hlo : lo ≤ m) (hm : m < 100000)
    (h : Listing b pages) : ∃ key, lastFileName pages = .ok key ∧ KeyFor key m := by
  unfold lastFileName
  rw [lastKey_all pages none h.more h.last, Option.or_none]
  obtain ⟨e, he, hk⟩ := hb.all m hlo (by omega)
  have hmem := (h.all e.1).mpr ⟨e, he, rfl⟩
  cases hlast : (pages.flatMap Page.keys).getLast? with
  | none =>
    rw [List.getLast?_eq_none_iff] at hlast
    rw [hlast] at hmem
    cases hmem
  | some key =>
    refine ⟨key, rfl, ?_⟩
    obtain ⟨e', he', rfl⟩ := (h.all key).mp (List.mem_of_getLast? hlast)
    obtain ⟨k, k1, k2, hk'⟩ := hb.only e' he'
    by_cases hkm : k = m
    · subst hkm; exact hk'
    · exfalso
      have hlt := key_lt e'.1 e.1 k m hk' hk (by omega) hm
      obtain ⟨ys, hys⟩ := List.getLast?_eq_some_iff.mp hlast
      have hp := h.sorted
      rw [hys] at hp hmem
      rw [List.pairwise_append] at hp
      rw [List.mem_append] at hmem
      rcases hmem with hmem | hmem
      · have := hp.2.2 _ hmem e'.1 (by simp)
        exact absurd (List.lt_trans this hlt) (List.lt_irrefl _)
      · rw [List.mem_singleton] at hmem
        rw [hmem] at hlt
        exact absurd hlt (List.lt_irrefl _)

end Verif.Props
