import Verif.Lemmas.E2hsGen

/-! # The generator of E2HS files, given honest archives -/

namespace Verif.E2hsGen
open Verif Verif.Props Verif.E2hsSpec
open Verif.E2store (Res fileBytes Short)
open Verif.HistoryValue (Body)
open Verif.HeaderValidator (Summary Record containerRoot Fork HeaderProof validate getSummary)
open Verif.ExecBuilder (Header Beacon ExecLib)
open Verif.Archive (E2hsTuple e2hsFormat Writer)

variable {Tx Rc Wd : Type}

/-! ## Downloads -/

/-- Eras in order. -/
def ErasFrom (i : Inputs Tx Rc Wd) (c : Chain Tx Rc Wd) : Nat → List (Era Wd) → Prop
  | _, [] => True
  | e, era :: rest => EraOf i c e era ∧ ErasFrom i c (e + 1) rest

theorem collect_eras (i : Inputs Tx Rc Wd) (c : Chain Tx Rc Wd) (he : Eras c) (hh : HonestEra i c) (links : List Nat)
    (hl : links.Perm (List.range (c.lastEra + 1))) (hp : i.net.parisBlock.toNat = 15537394) (stop k : Nat) :
    ∀ (fuel e next : Nat) (prev : Option Nat) (acc : List (Source Tx Rc Wd)), k ≤ fuel → 574 ≤ e → e ≤ c.lastEra + 1 →
      c.first e ≤ next → (next < c.first (e + 1) ∨ stop ≤ next) → (prev = none ∨ prev = some (e - 1)) →
      stop ≤ c.first (min (e + k) (c.lastEra + 1)) →
      ∃ eras : List (Era Wd), collect i.net i.site links stop fuel next prev acc =
          some (.ok (acc ++ eras.map .post)) ∧ eras.length ≤ k ∧ e + eras.length ≤ c.lastEra + 1 ∧
        ErasFrom i c e eras ∧ (stop ≤ next ∨ stop ≤ c.first (e + eras.length)) := by
  induction k with
  | zero =>
    intro fuel e next prev acc hf h1 h2 hn hn' hprev hs
    rw [Nat.add_zero, Nat.min_eq_left h2] at hs
    refine ⟨[], ?_, Nat.le_refl _, h2, trivial, .inl (by omega)⟩
    unfold collect
    rw [if_pos (by omega)]
    simp
  | succ k ih =>
    intro fuel e next prev acc hf h1 h2 hn hn' hprev hs
    by_cases hstop : stop ≤ next
    · refine ⟨[], ?_, Nat.zero_le _, h2, trivial, .inl hstop⟩
      unfold collect
      rw [if_pos hstop]
      simp
    · have hle : e ≤ c.lastEra := by
        refine Classical.byContradiction fun hc => ?_
        have : e = c.lastEra + 1 := by omega
        rw [this, Nat.min_eq_right (by omega)] at hs
        rw [this] at hn
        omega
      obtain ⟨fuel, rfl⟩ : ∃ m, fuel = m + 1 := ⟨fuel - 1, by omega⟩
      obtain ⟨era, hera, hof, _⟩ := hh.file e h1 hle
      obtain ⟨a, b, ha, hb, hlast, _⟩ := era_ends i c he e era h1 hle hof
      have hm := first_le c he 574 e (by omega) h1 (by omega)
      rw [he.merge] at hm
      have hfetch : fetchNext i.net i.site links next prev = .ok (.post era, some e) := by
        unfold fetchNext
        have hpar : parisAt i.net next = true := by unfold parisAt; simp; omega
        rw [hpar]
        simp only [Bool.not_true, Bool.false_eq_true, if_false]
        rcases hprev with rfl | rfl
        · simp only
          rw [fetchEra_ok i c he hh links hl e next h1 hle hn (by omega), hera]
          exact congrArg (fun z => Res.ok (Source.post era, some z)) hof.epoch
        · simp only
          rw [show e - 1 + 1 = e by omega, perm_contains links _ e hl, hera]
          rw [decide_eq_true (show e < c.lastEra + 1 by omega), if_neg (by simp)]
          exact congrArg (fun z => Res.ok (Source.post era, some z)) hof.epoch
      have hbound : b.number + 1 < 2 ^ 64 := by
        have := first_le c he (e + 1) (c.lastEra + 1) (by omega) (by omega) (Nat.le_refl _)
        have := he.bound
        omega
      obtain ⟨eras, h3, h4, h5, h6, h7⟩ := ih fuel (e + 1) (b.number + 1) (some e) (acc ++ [.post era]) (by omega)
        (by omega) (by omega) (by omega) (by
          rw [hlast]
          by_cases hlt : e + 1 ≤ c.lastEra
          · exact .inl (he.mono _ (by omega) hlt)
          · right
            have : e = c.lastEra := by omega
            rw [Nat.min_eq_right (by omega)] at hs
            rw [this]; exact hs) (.inr (by simp)) (by
          rw [show e + 1 + k = e + (k + 1) by omega]; exact hs)
      refine ⟨era :: eras, ?_, by simp; omega, by simp; omega, ⟨hof, h6⟩, .inr ?_⟩
      · unfold collect
        rw [if_neg hstop]
        simp only [hfetch]
        show (match (era.blocks.getLast?.map Signed.number) with
          | none => _
          | some n => _) = _
        rw [hb]
        simp only [Option.map_some]
        rw [if_neg (by omega), h3]
        simp
      · rw [List.length_cons, show e + (eras.length + 1) = e + 1 + eras.length by omega]
        rcases h7 with h7 | h7
        · have := first_le c he (e + 1) (e + 1 + eras.length) (by omega) (by omega) h5
          omega
        · exact h7

/-- A block is found in the eras. -/
theorem findPost_eras (i : Inputs Tx Rc Wd) (c : Chain Tx Rc Wd) (he : Eras c) (eras : List (Era Wd)) (e n : Nat)
    (h1 : 574 ≤ e) (h2 : e + eras.length ≤ c.lastEra + 1) (hs : ErasFrom i c e eras) (hn : c.first e ≤ n)
    (hn' : n < c.first (e + eras.length)) :
    ∃ e' b, findPost (eras.map (Source.post (Tx := Tx) (Rc := Rc))) n = .ok (b, c.batch e') ∧ b.number = n ∧
      BeaconOf i c e' b ∧ e ≤ e' ∧ e' < e + eras.length := by
  induction eras generalizing e with
  | nil => simp at hn'; omega
  | cons era eras ih =>
    obtain ⟨ho, hs⟩ := hs
    simp only [List.length_cons] at h2 hn' ⊢
    rw [List.map_cons]
    unfold findPost
    by_cases hlt : n < c.first (e + 1)
    · obtain ⟨b, hb, hbn, hof⟩ := era_getBlock i c he e n era h1 (by omega) ho hn hlt
      rw [hb]
      exact ⟨e, b, by rw [ho.batch], hbn, hof, Nat.le_refl _, by omega⟩
    · rw [era_getBlock_other i c he e n era h1 (by omega) ho (by omega)]
      obtain ⟨e', b, h3, h4, h5, h6, h7⟩ := ih (e + 1) (by omega) (by omega) hs (by omega)
        (by rw [show e + 1 + eras.length = e + (eras.length + 1) by omega]; exact hn')
      exact ⟨e', b, h3, h4, h5, by omega, by omega⟩

theorem erasFrom_last (i : Inputs Tx Rc Wd) (c : Chain Tx Rc Wd) (eras : List (Era Wd)) (e : Nat) (hne : eras ≠ [])
    (hs : ErasFrom i c e eras) : ∃ era, eras.getLast? = some era ∧ EraOf i c (e + eras.length - 1) era := by
  induction eras generalizing e with
  | nil => exact absurd rfl hne
  | cons era eras ih =>
    obtain ⟨ho, hs⟩ := hs
    cases eras with
    | nil => exact ⟨era, rfl, by simpa using ho⟩
    | cons era' eras =>
      obtain ⟨x, h1, h2⟩ := ih (e + 1) (by simp) hs
      refine ⟨x, by rw [List.getLast?_cons_cons]; exact h1, ?_⟩
      simp only [List.length_cons] at h2 ⊢
      rw [show e + (eras.length + 1 + 1) - 1 = e + 1 + (eras.length + 1) - 1 by omega]
      exact h2

/-- What a builder needs for the blocks of its file. -/
structure Ready (i : Inputs Tx Rc Wd) (c : Chain Tx Rc Wd) (index : Nat) (b : Builder Tx Rc Wd) : Prop where
  start : b.start = index * 8192
  pre : ∀ n, index * 8192 ≤ n → n < index * 8192 + 8192 → n < 15537394 →
    (∃ td, getPreMerge i.net b.sources n = .ok ⟨c.header n, c.body n, c.receipts n, td⟩) ∧
    ∃ records r, b.accumulator = some records ∧ i.trusted.epochs[index]? = some (epochRoot i.H records) ∧
      records.length ≤ 8192 ∧ records[n % 8192]? = some r ∧ r.blockHash = i.lib.keccak (i.lib.header.enc (c.header n))
  post : ∀ n, index * 8192 ≤ n → n < index * 8192 + 8192 → 15537394 ≤ n →
    ∃ e x, findPost b.sources n = .ok (x, c.batch e) ∧ x.number = n ∧ BeaconOf i c e x ∧
      (758 < e → ∃ s, b.summaries[e - 1 - 758]? = some s ∧
        s.blockSummaryRoot = containerRoot i.H (c.batch e).blockRoots.toList)
  receipts : ∀ n, index * 8192 ≤ n → n < index * 8192 + 8192 → 15537394 ≤ n →
    b.receipts.find? (fun e => e.1 = n) = some (n, c.receipts n)

/-! ## Receipts -/

theorem mapM_zip {α : Type} (f : Nat → α) (l : List Nat) :
    ((l.zip (l.map fun n => some (f n))).mapM fun x => x.2.map fun r => (x.1, r)) = some (l.map fun n => (n, f n)) := by
  induction l with
  | nil => rfl
  | cons a l ih =>
    rw [List.map_cons, List.zip_cons_cons, List.mapM_cons, ih]
    rfl

theorem receiptsRange_ok {α : Type} (api : List Nat → Option (List (Option α))) (f : Nat → α)
    (h : ∀ ns, api ns = some (ns.map fun n => some (f n))) (cs : List (List Nat)) :
    receiptsRange api cs = some (cs.flatten.map fun n => (n, f n)) := by
  induction cs with
  | nil => rfl
  | cons c cs ih =>
    unfold receiptsRange
    rw [h c]
    simp only [mapM_zip, ih, Option.map_some, List.flatten_cons, List.map_append]

theorem chunks_flatten (fuel : Nat) (l : List Nat) (h : l.length ≤ fuel) : (chunks fuel l).flatten = l := by
  induction fuel generalizing l with
  | zero =>
    have : l = [] := List.length_eq_zero_iff.mp (by omega)
    subst this; rfl
  | succ k ih =>
    unfold chunks
    cases l with
    | nil => rfl
    | cons a l =>
      rw [if_neg (by simp), List.flatten_cons, ih _ (by simp at h ⊢; omega), List.take_append_drop]

theorem find_pairs {α : Type} (f : Nat → α) (l : List Nat) (n : Nat) (h : n ∈ l) :
    (l.map fun n => (n, f n)).find? (fun e => e.1 = n) = some (n, f n) := by
  induction l with
  | nil => cases h
  | cons a l ih =>
    rw [List.map_cons, List.find?_cons]
    by_cases ha : a = n
    · subst ha; simp
    · have : n ∈ l := by cases h with
        | head => exact absurd rfl ha
        | tail _ h => exact h
      simp only [ha, decide_false]
      exact ih this

theorem find_filter {α : Type} (l : List (Nat × α)) (n m : Nat) (h : m ≠ n) :
    (l.filter fun e => e.1 ≠ n).find? (fun e => e.1 = m) = l.find? (fun e => e.1 = m) := by
  rw [List.find?_filter]
  congr
  funext e
  by_cases he : e.1 = m
  · subst he; simp [h]
  · simp [he]

/-! ## The builder -/

theorem summaries_of (i : Inputs Tx Rc Wd) (c : Chain Tx Rc Wd) (pre : List (Source Tx Rc Wd)) (eras : List (Era Wd))
    (e e' : Nat) (hs : ErasFrom i c e eras) (h1 : e ≤ e') (h2 : e' < e + eras.length) (h3 : 758 < e') :
    ∃ s, ((getSummaries (pre ++ eras.map .post)).getD [])[e' - 1 - 758]? = some s ∧
      s.blockSummaryRoot = containerRoot i.H (c.batch e').blockRoots.toList := by
  have hne : eras ≠ [] := by intro h; subst h; simp at h2; omega
  obtain ⟨era, hl, ho⟩ := erasFrom_last i c eras e hne hs
  have hg : (pre ++ eras.map (Source.post (Tx := Tx) (Rc := Rc))).getLast? = some (.post era) := by
    rw [List.getLast?_append, List.getLast?_map, hl]; rfl
  obtain ⟨l, hl, hall⟩ := ho.summaries (by omega)
  obtain ⟨s, h4, h5⟩ := hall (e' - 1) (by omega) (by omega)
  refine ⟨s, ?_, ?_⟩
  · unfold getSummaries
    rw [hg]
    simp only [hl, Option.getD_some]
    exact h4
  · rw [show e' - 1 + 1 = e' by omega] at h5
    exact h5

theorem ready (i : Inputs Tx Rc Wd) (c : Chain Tx Rc Wd) (index : Nat) (he : Eras c) (h1 : HonestEra1 i c index) (h2 : HonestEra i c)
    (hok : ChainOk i c) (hp : i.net.parisBlock.toNat = 15537394) (latest : Nat) (hl : i.latest = some latest)
    (hi : index * 8192 ≤ latest) (h3 : ThreeFiles c index) (fuel : Nat) (hf : 3 ≤ fuel) :
    ∃ b, newBuilder i fuel index = some (.ok b) ∧ Ready i c index b := by
  obtain ⟨links, hlinks, hperm⟩ := h2.links
  have hcl := checkLinks_perm links _ hperm (by omega)
  have hidx : ¬ index > latest / 8192 := by omega
  -- receipts
  obtain ⟨rs, hrs, hrf⟩ : ∃ rs, lookupReceipts i index = some rs ∧ ∀ n, index * 8192 ≤ n → n < index * 8192 + 8192 →
      15537394 ≤ n → rs.find? (fun e => e.1 = n) = some (n, c.receipts n) := by
    unfold lookupReceipts
    by_cases hpar : parisAt i.net (index * 8192 + 8192) = true
    · rw [if_pos hpar, receiptsRange_ok i.receipts c.receipts h2.receipts, chunks_flatten _ _ (by simp)]
      refine ⟨_, rfl, fun n hn hn' _ => find_pairs c.receipts _ n ?_⟩
      rw [List.mem_range'_1]; omega
    · rw [if_neg hpar]
      refine ⟨[], rfl, fun n hn hn' hm => ?_⟩
      exfalso
      apply hpar
      unfold parisAt
      simp; omega
  by_cases hpre : index * 8192 < 15537394
  · -- starts before the merge
    have hk : index < 1897 := by omega
    obtain ⟨td, hfile⟩ := h1.file hk
    obtain ⟨records, hep, hacc, hlen, hrec⟩ := h1.accumulator hk
    obtain ⟨keys, hkeys, hkp⟩ := h1.links
    have hla : lookupAccumulator i index = .ok (some records) := by
      unfold lookupAccumulator
      rw [hl]
      simp only
      rw [if_neg hidx, if_neg (by unfold parisAt; simp; omega), hep]
      simp only [hacc]
    rw [ThreeFiles, if_pos hpre] at h3
    generalize hts : ((List.range' (index * 8192) (min 8192 (15537394 - index * 8192))).map fun n =>
      (⟨c.header n, c.body n, c.receipts n, td n⟩ : Era1Block Tx Rc Wd)) = ts at hfile
    have hfetch : fetchNext i.net i.site links (index * 8192) none = .ok (.pre ts, none) := by
      unfold fetchNext
      rw [if_pos (by unfold parisAt; simp; omega), hkeys]
      simp only
      have hkl : keys.length = 1897 := by rw [hkp.length_eq, List.length_range]
      rw [if_neg (by simp [hkl, era1FileCount]), checkLinks_perm keys _ hkp (by omega),
        Nat.mul_div_cancel index (by omega), perm_contains keys _ index hkp, decide_eq_true hk, hfile]
      rfl
    have hlast : ∃ last, (ts.getLast?.map fun t => t.header.number.toNat) = some last ∧
        last + 1 = min (index * 8192 + 8192) 15537394 := by
      rw [← hts, List.getLast?_map, range'_last _ _ (by omega)]
      refine ⟨_, rfl, ?_⟩
      simp only
      rw [hok.number _ (by omega)]
      omega
    obtain ⟨last, htl, htn⟩ := hlast
    have hsrc : ∃ eras : List (Era Wd), provider i.net i.site fuel index = some (.ok ([.pre ts] ++ eras.map .post)) ∧
        574 + eras.length ≤ c.lastEra + 1 ∧ ErasFrom i c 574 eras ∧
        (index * 8192 + 8192 ≤ 15537394 ∨ index * 8192 + 8192 ≤ c.first (574 + eras.length)) := by
      obtain ⟨fuel, rfl⟩ : ∃ m, fuel = m + 1 := ⟨fuel - 1, by omega⟩
      have hstep : ∀ eras : List (Era Wd), collect i.net i.site links (index * 8192 + 8192) fuel
          (last + 1) none [.pre ts] = some (.ok ([.pre ts] ++ eras.map .post)) → eras.length ≤ 2 →
          provider i.net i.site (fuel + 1) index = some (.ok ([.pre ts] ++ eras.map .post)) := by
        intro eras hc hle
        unfold provider
        rw [hlinks]
        simp only [hcl, Bool.not_true, Bool.false_eq_true, if_false]
        have : collect i.net i.site links (index * 8192 + 8192) (fuel + 1) (index * 8192) none [] =
            some (.ok ([.pre ts] ++ eras.map .post)) := by
          unfold collect
          rw [if_neg (by omega)]
          simp only [hfetch]
          show (match (ts.getLast?.map fun t => t.header.number.toNat) with
            | none => _
            | some n => _) = _
          rw [htl]
          simp only
          rw [if_neg (by omega)]
          exact hc
        rw [this]
        simp only [Option.map_some, Res.bind]
        rw [if_pos (by simp; omega)]
      by_cases hstop : index * 8192 + 8192 ≤ 15537394
      · refine ⟨[], hstep [] ?_ (by simp), by have := he.last; simp; omega, trivial, .inl hstop⟩
        unfold collect
        rw [if_pos (show last + 1 ≥ index * 8192 + 8192 by
          rw [htn]; exact Nat.le_min.mpr ⟨Nat.le_refl _, hstop⟩)]
        simp
      · have h3 : index * 8192 + 8192 ≤ c.first (min 576 (c.lastEra + 1)) := by
          rcases h3 with h3 | h3
          · exact absurd h3 hstop
          · exact h3
        have hm := he.merge
        have hmono := he.mono 574 (by omega) he.last
        obtain ⟨eras, h4, h5, h6, h7, h8⟩ := collect_eras i c he h2 links hperm hp (index * 8192 + 8192) 2 fuel 574
          (last + 1) none [.pre ts] (by omega) (by omega) (by have := he.last; omega) (by omega)
          (by omega) (.inl rfl) h3
        refine ⟨eras, hstep eras h4 h5, h6, h7, .inr ?_⟩
        rcases h8 with h8 | h8
        · rw [htn] at h8
          exact absurd (Nat.le_trans h8 (Nat.min_le_right _ _)) hstop
        · exact h8
    obtain ⟨eras, hprov, hee, hfrom, hcover⟩ := hsrc
    refine ⟨⟨index * 8192, some records, [.pre ts] ++ eras.map .post, rs,
      (getSummaries ([.pre ts] ++ eras.map .post)).getD []⟩, ?_, ⟨rfl, ?_, ?_, hrf⟩⟩
    · unfold newBuilder
      rw [hla, hprov, hrs]
    · intro n hn hn' hm
      obtain ⟨r, hr, hrh⟩ := hrec n hm (by omega)
      refine ⟨⟨td n, ?_⟩, records, r, rfl, hep, hlen, hr, hrh⟩
      unfold getPreMerge
      rw [if_neg (by unfold parisAt; simp; omega)]
      simp only [List.cons_append]
      have : ts[n % 8192]? = some ⟨c.header n, c.body n, c.receipts n, td n⟩ := by
        rw [← hts, List.getElem?_map, List.getElem?_range' (by omega)]
        simp only [Option.map_some, Nat.one_mul]
        rw [show index * 8192 + n % 8192 = n by omega]
      rw [this]
      simp only [hok.number n (by omega), if_true]
    · intro n hn hn' hm
      obtain ⟨e', x, h4, h5, h6, h7, h8⟩ := findPost_eras i c he eras 574 n (by omega) hee hfrom
        (by rw [he.merge]; exact hm) (by omega)
      exact ⟨e', x, h4, h5, h6, fun h9 => summaries_of i c [.pre ts] eras 574 e' hfrom h7 h8 h9⟩
  · -- starts at the merge or later
    rw [ThreeFiles, if_neg hpre] at h3
    obtain ⟨e, h5, h6, h7, h8, h9⟩ := h3
    have hla : lookupAccumulator i index = .ok none := by
      unfold lookupAccumulator
      rw [hl]
      simp only
      rw [if_neg hidx, if_pos (by unfold parisAt; simp; omega)]
    obtain ⟨eras, h10, h11, h12, h13, h14⟩ := collect_eras i c he h2 links hperm hp (index * 8192 + 8192) 3 fuel e
      (index * 8192) none [] hf h5 (by omega) h6 (.inl h7) (.inl rfl) h8
    have hprov : provider i.net i.site fuel index = some (.ok (eras.map .post)) := by
      unfold provider
      rw [hlinks]
      simp only [hcl, Bool.not_true, Bool.false_eq_true, if_false, h10, List.nil_append, Option.map_some, Res.bind]
      rw [if_pos (by simp; omega)]
    refine ⟨⟨index * 8192, none, eras.map .post, rs, (getSummaries (eras.map (Source.post (Tx := Tx) (Rc := Rc)))).getD []⟩,
      ?_, ⟨rfl, ?_, ?_, hrf⟩⟩
    · unfold newBuilder
      rw [hla, hprov, hrs]
    · intro n hn hn' hm
      omega
    · intro n hn hn' hm
      obtain ⟨e', x, h4, h5', h6', h7', h8'⟩ := findPost_eras i c he eras e n h5 h12 h13 (by omega) (by omega)
      exact ⟨e', x, h4, h5', h6', fun h9 => summaries_of i c [] eras e e' h13 h7' h8' h9⟩

/-! ## The blocks -/

/-- The receipts that are left from block `n` on. -/
def Left (c : Chain Tx Rc Wd) (index n : Nat) (left : List (Nat × List Rc)) : Prop :=
  ∀ m, n ≤ m → m < index * 8192 + 8192 → 15537394 ≤ m → left.find? (fun e => e.1 = m) = some (m, c.receipts m)

theorem proof_ok (i : Inputs Tx Rc Wd) (c : Chain Tx Rc Wd) (e n : Nat) (x : Signed Wd) (hx : BeaconOf i c e x)
    (hn : x.number = n) (hnum : (c.header n).number.toNat = n) (hp : i.net.parisBlock.toNat = 15537394)
    (hm : 15537394 ≤ n) (s : List Summary)
    (hs : 758 < e → ∃ sm, s[e - 1 - 758]? = some sm ∧
      sm.blockSummaryRoot = containerRoot i.H (c.batch e).blockRoots.toList) :
    ∃ p, proofFor i.H x.beacon.slot (c.batch e) x.beacon.fork x.tree = some p ∧
      (validate i.H i.net i.trusted [] (fun _ => some s) (i.lib.lib.hdr (c.header n)) p).1 = .accept := by
  subst hn
  obtain ⟨beacon, tree⟩ := x
  have hhash : tree.blockHash = (i.lib.lib.hdr (c.header (Signed.number ⟨beacon, tree⟩))).hash :=
    hx.hash.trans hx.block.carries.hash
  have hslot := hx.slot
  have hroot := hx.root
  have hb := hx.bellatrix
  have hc := hx.capella
  have hd := hx.deneb
  have hsum := hx.summaries
  generalize Signed.number ⟨beacon, tree⟩ = n at *
  simp only at hslot hroot hb hc hd hsum hhash ⊢
  have hget : 758 < e → ∃ sm, (getSummary [] (fun _ => some s) beacon.slot.toNat).1 = some sm ∧
      sm.blockSummaryRoot = containerRoot i.H (c.batch e).blockRoots.toList := by
    intro he
    obtain ⟨sm, h1, h2⟩ := hs he
    refine ⟨sm, ?_, h2⟩
    have hi : ChainHead.historicalSummaryIndex beacon.slot.toNat = some (e - 1 - 758) := by
      unfold ChainHead.historicalSummaryIndex ChainHead.capellaSlot
      rw [if_neg (by omega)]
      exact congrArg some (by omega)
    unfold getSummary
    rw [hi]
    simp only [List.getElem?_nil, h1]
  have hnet : i.net.parisBlock ≤ (i.lib.lib.hdr (c.header n)).number := by
    rw [UInt64.le_iff_toNat_le]
    show i.net.parisBlock.toNat ≤ (c.header n).number.toNat
    omega
  clear hx
  revert hb hc hd hsum hroot hhash tree
  generalize beacon.fork = fork
  intro tree hroot hsum hhash hb hc hd
  cases fork with
  | bellatrix =>
    obtain ⟨ht, hr⟩ := hb rfl
    obtain ⟨p, h1, h2⟩ := C50_roots i.H i.net i.trusted [] (fun _ => some s) (i.lib.lib.hdr (c.header n)) beacon.slot
      (c.batch e).blockRoots (c.batch e).stateRoots tree hnet ht hhash hroot
      (by rw [show beacon.slot.toNat / 8192 = e - 1 by omega]; exact hr)
    exact ⟨.roots p, by simp [proofFor, h1], h2⟩
  | capella =>
    obtain ⟨ht, ht'⟩ := hc rfl
    obtain ⟨sm, hg, hsm⟩ := hget (hsum (by simp))
    obtain ⟨p, h1, h2⟩ := C50_capella i.H i.net i.trusted [] (fun _ => some s) (i.lib.lib.hdr (c.header n)) beacon.slot
      (c.batch e).blockRoots tree sm ht ht' hhash hroot hg hsm
    exact ⟨.capella p, by simp [proofFor, h1], h2⟩
  | deneb =>
    obtain ⟨sm, hg, hsm⟩ := hget (hsum (by simp))
    obtain ⟨p, h1, h2⟩ := C50_deneb i.H i.net i.trusted [] (fun _ => some s) (i.lib.lib.hdr (c.header n)) beacon.slot
      (c.batch e).blockRoots .deneb (.inl rfl) tree sm (hd (.inl rfl)) hhash hroot hg hsm
    exact ⟨.deneb p, by simp [proofFor, h1], h2⟩
  | electra =>
    obtain ⟨sm, hg, hsm⟩ := hget (hsum (by simp))
    obtain ⟨p, h1, h2⟩ := C50_deneb i.H i.net i.trusted [] (fun _ => some s) (i.lib.lib.hdr (c.header n)) beacon.slot
      (c.batch e).blockRoots .electra (.inr rfl) tree sm (hd (.inr rfl)) hhash hroot hg hsm
    exact ⟨.deneb p, by simp [proofFor, h1], h2⟩

/-- The block of the chain with a proof. -/
def chainBlock (c : Chain Tx Rc Wd) (n : Nat) (p : HeaderProof) : Full Tx Rc Wd := ⟨(c.header n, p), c.body n, c.receipts n⟩

theorem nextBlock_of (i : Inputs Tx Rc Wd) (c : Chain Tx Rc Wd) (hok : ChainOk i c) (hp : i.net.parisBlock.toNat = 15537394)
    (index : Nat) (b : Builder Tx Rc Wd) (hr : Ready i c index b) (left : List (Nat × List Rc)) (n : Nat)
    (h1 : index * 8192 ≤ n) (h2 : n < index * 8192 + 8192) (h3 : n < 2 ^ 64) (hl : Left c index n left) :
    ∃ p left', nextBlock i b left n = .ok (chainBlock c n p, left') ∧ Left c index (n + 1) left' ∧
      (validate i.H i.net i.trusted [] (fun _ => some b.summaries) (i.lib.lib.hdr (c.header n)) p).1 = .accept := by
  unfold nextBlock
  by_cases hm : 15537394 ≤ n
  · obtain ⟨e, x, hf, hn, hx, hs⟩ := hr.post n h1 h2 hm
    obtain ⟨p, hpf, hv⟩ := proof_ok i c e n x hx hn (hok.number n h3) hp hm b.summaries hs
    have hfind := hl n (Nat.le_refl _) h2 hm
    refine ⟨p, left.filter fun e => e.1 ≠ n, ?_, ?_, hv⟩
    · have hpar : parisAt i.net n = true := by unfold parisAt; simp; omega
      have hb := (C70_exact i.lib (fun k batch => proofFor i.H k.slot batch x.beacon.fork x.tree) x.beacon (c.batch e) p
        (c.header n) (c.body n)).mpr ⟨hn ▸ hx.block, hpf⟩
      rw [if_pos hpar]
      unfold postBlock getPostMerge
      rw [hpar, if_neg (by simp), hf]
      simp only [Res.bind]
      rw [if_neg (by simp [hn]), hb]
      simp only [hfind]
      rw [if_neg (by simp [hok.receipts n])]
      rfl
    · intro m hm1 hm2 hm3
      rw [find_filter left n m (by omega)]
      exact hl m (by omega) hm2 hm3
  · obtain ⟨⟨td, hg⟩, records, r, ha, he, hlen, hrec, hh⟩ := hr.pre n h1 h2 (by omega)
    have hnum := hok.number n h3
    have hnum' : (i.lib.lib.hdr (c.header n)).number.toNat = n := hnum
    obtain ⟨p, hc, hv⟩ := C34_built_proof_accepted i.H i.net i.trusted [] (fun _ => some b.summaries)
      (i.lib.lib.hdr (c.header n)) records r hlen (by rw [hnum']; exact hrec) hh
      (by rw [UInt64.lt_iff_toNat_lt, hnum']; omega)
      (by rw [hnum', show n / 8192 = index by omega]; exact he)
    refine ⟨.hashes p, left, ?_, fun m hm1 => hl m (by omega), hv⟩
    have hpar : ¬ parisAt i.net n = true := by unfold parisAt; simp; omega
    rw [if_neg hpar]
    unfold preBlock
    rw [hg]
    simp only [Res.bind, ha, hc]
    rfl

theorem validateBlock_of (i : Inputs Tx Rc Wd) (c : Chain Tx Rc Wd) (hok : ChainOk i c) (n : Nat) (p : HeaderProof)
    (s cache : List Summary) (hc : cache = [] ∨ cache = s)
    (hv : (validate i.H i.net i.trusted [] (fun _ => some s) (i.lib.lib.hdr (c.header n)) p).1 = .accept) :
    ∃ cache', validateBlock i s cache (chainBlock c n p) = .ok cache' ∧ (cache' = [] ∨ cache' = s) := by
  obtain ⟨h1, h2⟩ := validate_fixed i.H i.net i.trusted s cache (i.lib.lib.hdr (c.header n)) p hc
  rw [hv] at h1
  have h3 := validateBody_of i.lib (c.body n) (c.header n) (hok.roots n)
  have h4 : HistoryValidator.validateReceipts i.lib.lib (c.receipts n) (c.header n) = true := by
    unfold HistoryValidator.validateReceipts
    exact decide_eq_true (hok.receipts n)
  unfold validateBlock chainBlock
  simp only
  generalize validate i.H i.net i.trusted cache (fun _ => some s) (i.lib.lib.hdr (c.header n)) p = v at h1 h2
  obtain ⟨v, cache'⟩ := v
  simp only at h1 h2
  subst h1
  exact ⟨cache', by simp only [h3, h4, Bool.not_true, Bool.false_eq_true, if_false], h2⟩

/-- The blocks that are written. -/
theorem writeLoop_of (i : Inputs Tx Rc Wd) (c : Chain Tx Rc Wd) (hok : ChainOk i c) (hp : i.net.parisBlock.toNat = 15537394)
    (index : Nat) (b : Builder Tx Rc Wd) (hr : Ready i c index b) (h64 : index * 8192 + 8192 ≤ 2 ^ 64) (k : Nat) :
    ∀ (n : Nat) (left : List (Nat × List Rc)) (cache : List Summary), index * 8192 ≤ n → n + k = index * 8192 + 8192 →
      Left c index n left → (cache = [] ∨ cache = b.summaries) →
      ∃ ps : List HeaderProof, ps.length = k ∧
        ∀ w : Writer, writeLoop i b (List.range' n k) left cache w =
          w.appendAll (e2hsFormat i.codecs) (fullHash i)
            ((List.range' n k).zipWith (chainBlock c) ps) := by
  induction k with
  | zero => intro n left cache h1 h2 hl hc; exact ⟨[], rfl, fun w => rfl⟩
  | succ k ih =>
    intro n left cache h1 h2 hl hc
    obtain ⟨p, left', h3, h4, h5⟩ := nextBlock_of i c hok hp index b hr left n h1 (by omega) (by omega) hl
    obtain ⟨cache', h6, h7⟩ := validateBlock_of i c hok n p b.summaries cache hc h5
    obtain ⟨ps, h8, h9⟩ := ih (n + 1) left' cache' (Nat.le_succ_of_le h1) (by rw [← h2, Nat.add_right_comm]; rfl) h4 h7
    refine ⟨p :: ps, by simp [h8], fun w => ?_⟩
    rw [List.range'_succ, List.zipWith_cons_cons]
    show (nextBlock i b left n).bind _ = (w.append (e2hsFormat i.codecs) (fullHash i) (chainBlock c n p)).bind _
    rw [h3]
    show (validateBlock i b.summaries cache (chainBlock c n p)).bind _ = _
    rw [h6]
    show (w.append _ _ (chainBlock c n p)).bind _ = _
    cases (w.append (e2hsFormat i.codecs) (fullHash i) (chainBlock c n p)) with
    | ok w' => exact h9 w'
    | err => rfl
    | panic => rfl

/-! ## Files come from the archive -/

theorem search_from (site : Site Tx Rc Wd) (links : List Nat) (last n fuel start stop : Nat) (era : Era Wd)
    (h : search site links last n fuel start stop = .ok era) : ∃ e, site.era e = .ok era := by
  induction fuel generalizing start stop with
  | zero => cases h
  | succ k ih =>
    unfold search at h
    split at h
    · cases h
    · simp only at h
      split at h
      · cases h
      · obtain ⟨a, _, h⟩ := bind_ok h
        split at h
        · obtain ⟨x, hx, h⟩ := bind_ok h
          split at h
          · cases h; exact ⟨_, hx⟩
          · cases h
        · split at h
          · cases h
          · obtain ⟨b, _, h⟩ := bind_ok h
            split at h
            · obtain ⟨x, hx, h⟩ := bind_ok h
              split at h
              · cases h; exact ⟨_, hx⟩
              · split at h
                · exact ih _ _ h
                · exact ih _ _ h
            · split at h
              · exact ih _ _ h
              · exact ih _ _ h

def SourceOk (site : Site Tx Rc Wd) : Source Tx Rc Wd → Prop
  | .pre _ => True
  | .post era => ∃ e, site.era e = .ok era

theorem fetchNext_from (net : HeaderValidator.Net) (site : Site Tx Rc Wd) (links : List Nat) (next : Nat) (prev prev' : Option Nat)
    (src : Source Tx Rc Wd) (h : fetchNext net site links next prev = .ok (src, prev')) : SourceOk site src := by
  unfold fetchNext at h
  split at h
  · split at h
    · cases h
    · split at h
      · cases h
      · split at h
        · cases h
        · split at h
          · cases h
          · obtain ⟨x, hx, h⟩ := map_ok h
            cases h
            trivial
  · split at h
    · split at h
      · cases h
      · obtain ⟨x, hx, h⟩ := map_ok h
        cases h
        exact ⟨_, hx⟩
    · obtain ⟨x, hx, h⟩ := map_ok h
      cases h
      unfold fetchEra at hx
      split at hx
      · cases hx
      · exact search_from _ _ _ _ _ _ _ _ hx

theorem collect_from (net : HeaderValidator.Net) (site : Site Tx Rc Wd) (links : List Nat) (stop fuel next : Nat)
    (prev : Option Nat) (acc srcs : List (Source Tx Rc Wd)) (ha : ∀ s ∈ acc, SourceOk site s)
    (h : collect net site links stop fuel next prev acc = some (.ok srcs)) : ∀ s ∈ srcs, SourceOk site s := by
  induction fuel generalizing next prev acc with
  | zero =>
    unfold collect at h
    split at h
    · cases h; exact ha
    · cases h
  | succ k ih =>
    unfold collect at h
    split at h
    · cases h; exact ha
    · simp only at h
      split at h
      · cases h
      · cases h
      · next src prev' hf =>
        split at h
        · cases h
        · split at h
          · cases h
          · refine ih _ _ _ (fun s hs => ?_) h
            rcases List.mem_append.mp hs with hs | hs
            · exact ha s hs
            · rw [List.mem_singleton] at hs
              subst hs
              exact fetchNext_from net site links next prev prev' s hf

theorem newBuilder_from (i : Inputs Tx Rc Wd) (fuel index : Nat) (b : Builder Tx Rc Wd)
    (h : newBuilder i fuel index = some (.ok b)) : b.start = index * 8192 ∧ FromArchive i b.summaries ∧
      ∃ l, i.latest = some l ∧ index * 8192 ≤ l := by
  unfold newBuilder at h
  split at h
  · cases h
  · cases h
  · next acc hacc =>
    have hlat : ∃ l, i.latest = some l ∧ index * 8192 ≤ l := by
      unfold lookupAccumulator at hacc
      split at hacc
      · cases hacc
      · next l hl =>
        split at hacc
        · cases hacc
        · exact ⟨l, hl, by omega⟩
    split at h
    · cases h
    · next sources hs =>
      have hok : ∀ s ∈ sources, SourceOk i.site s := by
        unfold provider at hs
        split at hs
        · cases hs
        · split at hs
          · cases hs
          · rw [Option.map_eq_some_iff] at hs
            obtain ⟨r, hr, hs⟩ := hs
            obtain ⟨srcs, h1, h2⟩ := bind_ok hs
            split at h2
            · cases h2
              subst h1
              exact collect_from _ _ _ _ _ _ _ [] _ (fun s hs => by cases hs) hr
            · cases h2
      split at h
      · cases h
      · cases h
        refine ⟨rfl, ?_, hlat⟩
        show FromArchive i ((getSummaries sources).getD [])
        unfold getSummaries
        split
        · next era hl =>
          have := hok _ (List.mem_of_getLast? hl)
          obtain ⟨e, he⟩ := this
          cases hsm : era.summaries with
          | none => exact .inl rfl
          | some l => exact .inr ⟨e, era, he, hsm⟩
        · exact .inl rfl
    · cases h

/-! ## Links, again -/

theorem perm_of_subset (l k : List Nat) (hn : l.Nodup) (hs : ∀ x ∈ l, x ∈ k) (hl : k.length ≤ l.length) : k.Perm l := by
  induction l generalizing k with
  | nil =>
    have : k = [] := List.length_eq_zero_iff.mp (by simpa using hl)
    subst this
    exact List.Perm.refl _
  | cons a l ih =>
    have ha := hs a (List.mem_cons_self)
    rw [List.nodup_cons] at hn
    refine (List.perm_cons_erase ha).trans (List.Perm.cons a (ih _ hn.2 (fun x hx => ?_) ?_))
    · exact (List.mem_erase_of_ne (fun h => hn.1 (by rw [← h]; exact hx))).mpr (hs x (List.mem_cons_of_mem _ hx))
    · rw [List.length_erase_of_mem ha]
      simp at hl
      omega

/-! ## An archive that states wrong indices -/

/-- Every era file states the index before its own. -/
def shifted (s : Site Tx Rc Wd) : Site Tx Rc Wd :=
  { s with era := fun e => (s.era e).map fun x => { x with epochIndex := x.epochIndex - 1 } }

theorem search_shifted (s : Site Tx Rc Wd) (links : List Nat) (last n fuel start stop : Nat) :
    search (shifted s) links last n fuel start stop =
      (search s links last n fuel start stop).map fun x => { x with epochIndex := x.epochIndex - 1 } := by
  induction fuel generalizing start stop with
  | zero => rfl
  | succ k ih =>
    unfold search
    split
    · rfl
    · simp only
      split
      · rfl
      · show (s.first _).bind _ = ((s.first _).bind _).map _
        cases s.first ((start + stop) / 2) with
        | err => rfl
        | panic => rfl
        | ok a =>
          simp only [Res.bind]
          have hera : (shifted s).era ((start + stop) / 2) =
            (s.era ((start + stop) / 2)).map fun x => { x with epochIndex := x.epochIndex - 1 } := rfl
          have hfirst : (shifted s).first = s.first := rfl
          split
          · rw [hera]
            cases s.era ((start + stop) / 2) with
            | err => rfl
            | panic => rfl
            | ok x =>
              show (if Era.contains _ n then _ else _) = Res.map _ (if _ then _ else _)
              have : Era.contains { x with epochIndex := x.epochIndex - 1 } n = x.contains n := rfl
              rw [this]
              split <;> rfl
          · split
            · rfl
            · rw [hfirst]
              cases s.first ((start + stop) / 2 + 1) with
              | err => rfl
              | panic => rfl
              | ok b =>
                simp only
                split
                · rw [hera]
                  cases s.era ((start + stop) / 2) with
                  | err => rfl
                  | panic => rfl
                  | ok x =>
                    show (if Era.contains _ n then _ else _) = Res.map _ (if _ then _ else _)
                    have : Era.contains { x with epochIndex := x.epochIndex - 1 } n = x.contains n := rfl
                    rw [this]
                    split
                    · rfl
                    · split
                      · exact ih _ _
                      · exact ih _ _
                · split
                  · exact ih _ _
                  · exact ih _ _

/-- Downloads from it do not end. -/
theorem collect_shifted (i : Inputs Tx Rc Wd) (c : Chain Tx Rc Wd) (he : Eras c) (hh : HonestEra i c) (links : List Nat)
    (hl : links.Perm (List.range (c.lastEra + 1))) (hp : i.net.parisBlock.toNat = 15537394) (e stop : Nat) (h1 : 574 ≤ e)
    (h2 : e ≤ c.lastEra) (hs : c.first (e + 1) < stop) (fuel next : Nat) (prev : Option Nat)
    (acc : List (Source Tx Rc Wd))
    (hn : (prev = none ∧ c.first e ≤ next ∧ next < c.first (e + 1)) ∨ (prev = some (e - 1) ∧ next = c.first (e + 1))) :
    collect i.net (shifted i.site) links stop fuel next prev acc = none := by
  obtain ⟨era, hera, hof, _⟩ := hh.file e h1 h2
  obtain ⟨a, b, ha, hb, hlast, _⟩ := era_ends i c he e era h1 h2 hof
  have hm := first_le c he 574 e (by omega) h1 (by omega)
  have hm' := he.mono e h1 h2
  rw [he.merge] at hm
  have hbound : b.number + 1 < 2 ^ 64 := by
    have := first_le c he (e + 1) (c.lastEra + 1) (by omega) (by omega) (Nat.le_refl _)
    have := he.bound
    omega
  induction fuel generalizing next prev acc with
  | zero =>
    unfold collect
    rw [if_neg (by omega)]
  | succ k ih =>
    have hfetch : fetchNext i.net (shifted i.site) links next prev =
        .ok (.post { era with epochIndex := era.epochIndex - 1 }, some (e - 1)) := by
      unfold fetchNext
      have hpar : parisAt i.net next = true := by unfold parisAt; simp; omega
      rw [hpar]
      simp only [Bool.not_true, Bool.false_eq_true, if_false]
      rcases hn with ⟨rfl, h3, h4⟩ | ⟨rfl, rfl⟩
      · simp only
        have := fetchEra_ok i c he hh links hl e next h1 h2 h3 h4
        unfold fetchEra at this ⊢
        rw [if_neg (by unfold mergeBlock; omega)] at this ⊢
        simp only at this ⊢
        rw [search_shifted, this, hera]
        exact congrArg (fun z => Res.ok (Source.post _, some (z - 1))) hof.epoch
      · simp only
        rw [show e - 1 + 1 = e by omega, perm_contains links _ e hl,
          decide_eq_true (show e < c.lastEra + 1 by omega), if_neg (by simp)]
        show ((i.site.era e).map _).map _ = _
        rw [hera]
        exact congrArg (fun z => Res.ok (Source.post _, some (z - 1))) hof.epoch
    unfold collect
    rw [if_neg (by omega)]
    simp only [hfetch]
    show (match (era.blocks.getLast?.map Signed.number) with
      | none => _
      | some n => _) = _
    rw [hb]
    simp only [Option.map_some]
    rw [if_neg (by omega)]
    exact ih _ _ _ (.inr ⟨rfl, hlast⟩)

end Verif.E2hsGen
