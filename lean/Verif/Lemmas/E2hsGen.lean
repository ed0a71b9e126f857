import Verif.Props.E2hsGenSpec
import Verif.Props.ExecBuilder
import Verif.Props.BuiltProofs
import Verif.Props.Archive

/-! # Lemmas about the generator of E2HS files -/

namespace Verif.E2hsGen
open Verif Verif.Props Verif.E2hsSpec
open Verif.E2store (Res fileBytes Short)
open Verif.HistoryValue (Body)
open Verif.HeaderValidator (Summary Record containerRoot Fork HeaderProof validate getSummary)
open Verif.ExecBuilder (Header Beacon ExecLib)
open Verif.Archive (E2hsTuple e2hsFormat Writer)

variable {Tx Rc Wd : Type}

/-! ## Results -/

theorem bind_ok {α β : Type} {x : Res α} {f : α → Res β} {b : β} (h : x.bind f = .ok b) : ∃ a, x = .ok a ∧ f a = .ok b := by
  cases x with
  | ok a => exact ⟨a, rfl, h⟩
  | err => cases h
  | panic => cases h

theorem map_ok {α β : Type} {x : Res α} {f : α → β} {b : β} (h : x.map f = .ok b) : ∃ a, x = .ok a ∧ f a = b := by
  cases x with
  | ok a => exact ⟨a, rfl, by cases h; rfl⟩
  | err => cases h
  | panic => cases h

/-! ## The cache of summaries -/

theorem getSummary_fixed (s cache : List Summary) (slot : Nat) (h : cache = [] ∨ cache = s) :
    (getSummary cache (fun _ => some s) slot).1 = (getSummary [] (fun _ => some s) slot).1 ∧
      ((getSummary cache (fun _ => some s) slot).2 = [] ∨ (getSummary cache (fun _ => some s) slot).2 = s) := by
  unfold getSummary
  cases ChainHead.historicalSummaryIndex slot with
  | none => exact ⟨rfl, h⟩
  | some i =>
    rcases h with rfl | rfl
    · refine ⟨rfl, ?_⟩
      simp only [List.getElem?_nil]
      cases s[i]? with
      | none => exact .inl rfl
      | some x => exact .inr rfl
    · simp only [List.getElem?_nil]
      cases h : cache[i]? with
      | none => exact ⟨rfl, .inr rfl⟩
      | some x => exact ⟨rfl, .inr rfl⟩

theorem validate_fixed (H : Id → Id → Id) (net : HeaderValidator.Net) (t : HeaderValidator.Trusted) (s cache : List Summary)
    (hd : HeaderValidator.Header) (p : HeaderProof) (h : cache = [] ∨ cache = s) :
    (validate H net t cache (fun _ => some s) hd p).1 = (validate H net t [] (fun _ => some s) hd p).1 ∧
      ((validate H net t cache (fun _ => some s) hd p).2 = [] ∨ (validate H net t cache (fun _ => some s) hd p).2 = s) := by
  cases p with
  | hashes p => exact ⟨rfl, h⟩
  | roots p => exact ⟨rfl, h⟩
  | capella p =>
    obtain ⟨h1, h2⟩ := getSummary_fixed s cache p.slot.toNat h
    simp only [validate, HeaderValidator.verifyCapellaToDeneb]
    split
    · exact ⟨rfl, h⟩
    · split
      · exact ⟨rfl, h⟩
      · split
        · exact ⟨rfl, h⟩
        · simp only [h1]; exact ⟨trivial, h2⟩
  | deneb p =>
    obtain ⟨h1, h2⟩ := getSummary_fixed s cache p.slot.toNat h
    simp only [validate, HeaderValidator.verifyPostDeneb]
    split
    · exact ⟨rfl, h⟩
    · split
      · exact ⟨rfl, h⟩
      · simp only [h1]; exact ⟨trivial, h2⟩

/-! ## Blocks that are written are good -/

theorem validateBody_ok (l : ExecLib Tx Rc Wd) (body : Body Header Tx Wd) (h : Header)
    (hv : HistoryValidator.validateBody l.lib body h = true) :
    l.keccak (l.ommers.enc body.ommers) = h.ommersHash ∧ l.trieRoot (body.transactions.map l.tx.enc) = h.transactionsRoot ∧
      ∀ ws, body.withdrawals = some ws → h.withdrawalsRoot = some (l.trieRoot (ws.map l.withdrawal.enc)) := by
  unfold HistoryValidator.validateBody at hv
  split at hv
  · cases hv
  · next h1 =>
    split at hv
    · cases hv
    · next h2 =>
      refine ⟨Decidable.not_not.mp h1, Decidable.not_not.mp h2, fun ws hw => ?_⟩
      rw [hw] at hv
      simp only at hv
      split at hv
      · cases hv
      · next root hr => exact hr.trans (congrArg some (of_decide_eq_true hv).symm)

theorem validateBody_of (l : ExecLib Tx Rc Wd) (body : Body Header Tx Wd) (h : Header) (hr : RootsOf l h body) :
    HistoryValidator.validateBody l.lib body h = true := by
  have h1 := hr.ommers
  have h2 := hr.transactions
  have h3 := hr.withdrawals
  unfold HistoryValidator.validateBody
  rw [if_neg (fun hn => hn h1.symm), if_neg (fun hn => hn h2.symm)]
  cases hw : body.withdrawals with
  | none => rfl
  | some ws =>
    rw [hw] at h3
    have h3 : (l.lib.view h).withdrawalsRoot = some (l.lib.trieRoot (ws.map l.lib.withdrawal.enc)) := h3
    simp only [h3, decide_true]

theorem validateBlock_ok (i : Inputs Tx Rc Wd) (s cache cache' : List Summary) (f : Full Tx Rc Wd) (n : Nat)
    (hc : cache = [] ∨ cache = s) (hn : f.headerWithProof.1.number.toNat = n)
    (h : validateBlock i s cache f = .ok cache') : GoodBlock i s n f ∧ (cache' = [] ∨ cache' = s) := by
  unfold validateBlock at h
  obtain ⟨h1, h2⟩ := validate_fixed i.H i.net i.trusted s cache (i.lib.lib.hdr f.headerWithProof.1) f.headerWithProof.2 hc
  split at h
  · cases h
  · cases h
  · next c hv =>
    rw [hv] at h1 h2
    split at h
    · cases h
    · next hb =>
      split at h
      · cases h
      · next hr =>
        cases h
        obtain ⟨b1, b2, b3⟩ := validateBody_ok i.lib f.body f.headerWithProof.1 (by simpa using hb)
        refine ⟨⟨hn, h1.symm, b1, b2, b3, ?_⟩, h2⟩
        have hr : HistoryValidator.validateReceipts i.lib.lib f.receipts f.headerWithProof.1 = true := by simpa using hr
        unfold HistoryValidator.validateReceipts at hr
        exact of_decide_eq_true hr

theorem nextBlock_number (i : Inputs Tx Rc Wd) (b : Builder Tx Rc Wd) (left left' : List (Nat × List Rc)) (n : Nat)
    (f : Full Tx Rc Wd) (h : nextBlock i b left n = .ok (f, left')) : f.headerWithProof.1.number.toNat = n := by
  unfold nextBlock at h
  split at h
  · unfold postBlock at h
    obtain ⟨x, _, h⟩ := bind_ok h
    split at h
    · cases h
    · next hn =>
      obtain ⟨r, hr, h⟩ := bind_ok h
      obtain ⟨⟨hd, p⟩, body⟩ := r
      have hv := (C70_valid i.lib _ _ _ p hd body hr).2.1
      split at h
      · cases h
      · split at h
        · cases h
        · cases h
          rw [hv]
          exact Decidable.not_not.mp hn
  · obtain ⟨f', hf, h⟩ := map_ok h
    cases h
    unfold preBlock at hf
    obtain ⟨t, ht, hf⟩ := bind_ok hf
    have hn : t.header.number.toNat = n := by
      unfold getPreMerge at ht
      split at ht
      · cases ht
      · split at ht
        · cases ht
        · split at ht
          · cases ht
          · split at ht
            · next hn => cases ht; exact hn
            · cases ht
        · cases ht
    split at hf
    · cases hf
    · split at hf
      · cases hf
      · cases hf
      · cases hf; exact hn

theorem writeLoop_ok (i : Inputs Tx Rc Wd) (b : Builder Tx Rc Wd) (ns : List Nat) (left : List (Nat × List Rc))
    (cache : List Summary) (w w' : Writer) (hc : cache = [] ∨ cache = b.summaries)
    (h : writeLoop i b ns left cache w = .ok w') :
    ∃ ts : List (Full Tx Rc Wd), ts.length = ns.length ∧ (∀ (k : Nat) f, ts[k]? = some f → ∃ n, ns[k]? = some n ∧ GoodBlock i b.summaries n f) ∧
      w.appendAll (e2hsFormat i.codecs) (fullHash i) ts = .ok w' := by
  induction ns generalizing left cache w with
  | nil => exact ⟨[], rfl, fun k f hk => by simp at hk, h⟩
  | cons n ns ih =>
    unfold writeLoop at h
    obtain ⟨⟨f, left'⟩, hf, h⟩ := bind_ok h
    obtain ⟨cache', hv, h⟩ := bind_ok h
    obtain ⟨w2, ha, h⟩ := bind_ok h
    obtain ⟨hg, hc'⟩ := validateBlock_ok i b.summaries cache cache' f n hc (nextBlock_number i b left left' n f hf) hv
    obtain ⟨ts, h1, h2, h3⟩ := ih left' cache' w2 hc' h
    refine ⟨f :: ts, by simp [h1], fun k g hk => ?_, ?_⟩
    · cases k with
      | zero => simp at hk; subst hk; exact ⟨n, rfl, hg⟩
      | succ k => exact h2 k g (by simpa using hk)
    · show (w.append _ _ f).bind _ = _
      have ha : w.append (e2hsFormat i.codecs) (fullHash i) f = .ok w2 := ha
      rw [ha]
      exact h3

theorem fileBytes_short (rs : List (UInt16 × Bytes)) (h : Short rs) : (fileBytes rs).length ≤ rs.length * 2 ^ 32 := by
  induction rs with
  | nil => simp [fileBytes]
  | cons r rs ih =>
    have h1 := h r (List.mem_cons_self)
    have h2 := ih h.tail
    have h3 := E2store.recordBytes_length r
    have h4 : fileBytes (r :: rs) = E2store.recordBytes r ++ fileBytes rs := rfl
    rw [h4, List.length_append, List.length_cons, Nat.add_mul]
    omega

theorem e2hsRecords_length (i : Inputs Tx Rc Wd) (ts : List (Full Tx Rc Wd)) :
    (ts.flatMap (e2hsRecords i.codecs)).length = 3 * ts.length := by
  induction ts with
  | nil => rfl
  | cons t ts ih => rw [List.flatMap_cons, List.length_append, ih, List.length_cons]; simp [e2hsRecords]; omega

theorem written_small (i : Inputs Tx Rc Wd) (hh : Codec.Lossless i.codecs.headerWithProof)
    (hb : Codec.Lossless i.codecs.body) (hr : Codec.Lossless i.codecs.receipts) (epoch : UInt64) (ts : List (Full Tx Rc Wd))
    (w : Writer) (h : writeBlocks i.codecs (fullHash i) epoch ts = .ok w) (hl : ts.length = 8192) :
    w.written.length < 2 ^ 64 := by
  obtain ⟨hs, rfl⟩ := (e2hs_lawful_write i.codecs (fullHash i) epoch ts w hh hb hr).mp h
  show (fileBytes ((0x6532, []) :: ts.flatMap (e2hsRecords i.codecs))).length < 2 ^ 64
  have hs' : Short ((0x6532, []) :: ts.flatMap (e2hsRecords i.codecs)) := by
    intro r hr
    cases hr with
    | head => decide
    | tail _ hr => exact hs r hr
  have := fileBytes_short _ hs'
  rw [List.length_cons, e2hsRecords_length, hl] at this
  omega

/-! ## Links -/

theorem perm_contains (keys : List Nat) (m k : Nat) (h : keys.Perm (List.range m)) : keys.contains k = decide (k < m) := by
  rw [Bool.eq_iff_iff, List.contains_iff_mem, h.mem_iff, List.mem_range, decide_eq_true_iff]

theorem checkLinks_perm (keys : List Nat) (m : Nat) (h : keys.Perm (List.range m)) (hm : 0 < m) : checkLinks keys = true := by
  have hl : keys.length = m := by rw [h.length_eq, List.length_range]
  unfold checkLinks
  rw [Bool.and_eq_true]
  constructor
  · cases keys with
    | nil => simp at hl; omega
    | cons => rfl
  · rw [List.all_eq_true]
    intro k hk
    rw [perm_contains keys m k h]
    rw [hl, List.mem_range] at hk
    simpa using hk

theorem foldl_max_le (l : List Nat) (a b : Nat) (ha : a ≤ b) (h : ∀ x ∈ l, x ≤ b) : l.foldl Nat.max a ≤ b := by
  induction l generalizing a with
  | nil => exact ha
  | cons x l ih =>
    exact ih _ (Nat.max_le.mpr ⟨ha, h x (List.mem_cons_self)⟩) fun y hy => h y (List.mem_cons_of_mem _ hy)

theorem le_foldl_max (l : List Nat) (a : Nat) : a ≤ l.foldl Nat.max a := by
  induction l generalizing a with
  | nil => exact Nat.le_refl _
  | cons x l ih => exact Nat.le_trans (Nat.le_max_left a x) (ih _)

theorem mem_le_foldl_max (l : List Nat) (a x : Nat) (h : x ∈ l) : x ≤ l.foldl Nat.max a := by
  induction l generalizing a with
  | nil => cases h
  | cons y l ih =>
    cases h with
    | head => exact Nat.le_trans (Nat.le_max_right a x) (le_foldl_max l _)
    | tail _ h => exact ih _ h

theorem perm_max (keys : List Nat) (m : Nat) (h : keys.Perm (List.range (m + 1))) : keys.foldl Nat.max 0 = m := by
  apply Nat.le_antisymm
  · refine foldl_max_le keys 0 m (Nat.zero_le _) fun x hx => ?_
    have := h.mem_iff.mp hx
    rw [List.mem_range] at this
    omega
  · exact mem_le_foldl_max keys 0 m (h.mem_iff.mpr (List.mem_range.mpr (by omega)))

/-! ## Eras -/

theorem first_lt (c : Chain Tx Rc Wd) (h : Eras c) (a b : Nat) (ha : 574 ≤ a) (hab : a < b) (hb : b ≤ c.lastEra + 1) :
    c.first a < c.first b := by
  induction b with
  | zero => omega
  | succ b ih =>
    have := h.mono b (by omega) (by omega)
    by_cases hab' : a = b
    · rw [hab']; exact this
    · have := ih (by omega) (by omega); omega

theorem first_le (c : Chain Tx Rc Wd) (h : Eras c) (a b : Nat) (ha : 574 ≤ a) (hab : a ≤ b) (hb : b ≤ c.lastEra + 1) :
    c.first a ≤ c.first b := by
  rcases Nat.lt_or_ge a b with h1 | h1
  · exact Nat.le_of_lt (first_lt c h a b ha h1 hb)
  · rw [Nat.le_antisymm hab h1]; exact Nat.le_refl _

theorem range'_last (a n : Nat) (h : 0 < n) : (List.range' a n).getLast? = some (a + n - 1) := by
  obtain ⟨m, rfl⟩ : ∃ m, n = m + 1 := ⟨n - 1, by omega⟩
  rw [List.range'_concat]
  simp

/-- The ends of an era. -/
theorem era_ends (i : Inputs Tx Rc Wd) (c : Chain Tx Rc Wd) (he : Eras c) (e : Nat) (era : Era Wd) (h1 : 574 ≤ e)
    (h2 : e ≤ c.lastEra) (h : EraOf i c e era) :
    ∃ a b, era.blocks.head? = some a ∧ era.blocks.getLast? = some b ∧ b.number + 1 = c.first (e + 1) ∧
      (a.number = c.first e ∨ (e = 574 ∧ a.number = 0)) := by
  obtain ⟨old, new, hb, ho, hz, hn, _⟩ := h.blocks
  have hm := he.mono e h1 h2
  have hlen : 0 < c.first (e + 1) - c.first e := by omega
  have hlast : (new.map Signed.number).getLast? = some (c.first e + (c.first (e + 1) - c.first e) - 1) := by
    rw [hn, range'_last _ _ hlen]
  have hhead : (new.map Signed.number).head? = some (c.first e) := by
    rw [hn, List.head?_range', if_neg (by omega)]
  rw [List.getLast?_map] at hlast
  rw [List.head?_map] at hhead
  cases hl : new.getLast? with
  | none => rw [hl] at hlast; cases hlast
  | some b =>
    cases hh : new.head? with
    | none => rw [hh] at hhead; cases hhead
    | some a =>
      rw [hl] at hlast
      rw [hh] at hhead
      have hlast := Option.some.inj hlast
      have hhead := Option.some.inj hhead
      have hgl : era.blocks.getLast? = some b := by rw [hb, List.getLast?_append, hl]; rfl
      cases old with
      | nil => exact ⟨a, b, by rw [hb]; exact hh, hgl, by omega, .inl hhead⟩
      | cons x old =>
        refine ⟨x, b, by rw [hb]; rfl, hgl, by omega, .inr ⟨?_, hz x (List.mem_cons_self)⟩⟩
        exact Classical.byContradiction fun hne => by cases ho hne

theorem era_contains (i : Inputs Tx Rc Wd) (c : Chain Tx Rc Wd) (he : Eras c) (e n : Nat) (era : Era Wd) (h1 : 574 ≤ e)
    (h2 : e ≤ c.lastEra) (h : EraOf i c e era) (hn : c.first e ≤ n) : era.contains n = decide (n < c.first (e + 1)) := by
  obtain ⟨a, b, ha, hb, hl, hf⟩ := era_ends i c he e era h1 h2 h
  unfold Era.contains
  rw [ha, hb]
  simp only
  have : a.number ≤ n := by rcases hf with hf | ⟨_, hf⟩ <;> omega
  rw [Bool.eq_iff_iff]
  simp only [Bool.and_eq_true, decide_eq_true_iff]
  omega

/-- A block is found in its era. -/
theorem era_getBlock (i : Inputs Tx Rc Wd) (c : Chain Tx Rc Wd) (he : Eras c) (e n : Nat) (era : Era Wd) (h1 : 574 ≤ e)
    (h2 : e ≤ c.lastEra) (h : EraOf i c e era) (hn : c.first e ≤ n) (hn' : n < c.first (e + 1)) :
    ∃ b, era.getBlock n = some (some b) ∧ b.number = n ∧ BeaconOf i c e b := by
  obtain ⟨a, b, ha, hb, hl, hf⟩ := era_ends i c he e era h1 h2 h
  have hle : a.number ≤ n := by rcases hf with hf | ⟨_, hf⟩ <;> omega
  unfold Era.getBlock
  rw [ha, hb]
  simp only
  rw [if_pos (by simp; omega)]
  obtain ⟨old, new, hbl, _, hz, hnum, hg⟩ := h.blocks
  have hpos : 0 < n := by
    have := first_le c he 574 e (by omega) h1 (by omega)
    rw [he.merge] at this
    omega
  have hmem : n ∈ new.map Signed.number := by
    rw [hnum, List.mem_range'_1]
    omega
  obtain ⟨x, hx, hxn⟩ := List.mem_map.mp hmem
  cases hfind : era.blocks.find? fun x => x.number = n with
  | none =>
    rw [List.find?_eq_none] at hfind
    have := hfind x (by rw [hbl]; exact List.mem_append_right _ hx)
    simp [hxn] at this
  | some y =>
    have hy := List.find?_some hfind
    have hym := List.mem_of_find?_eq_some hfind
    simp only [decide_eq_true_iff] at hy
    refine ⟨y, rfl, hy, ?_⟩
    rw [hbl] at hym
    rcases List.mem_append.mp hym with hym | hym
    · have := hz y hym; omega
    · exact hg y hym

/-- It is not found in another era. -/
theorem era_getBlock_other (i : Inputs Tx Rc Wd) (c : Chain Tx Rc Wd) (he : Eras c) (e n : Nat) (era : Era Wd)
    (h1 : 574 ≤ e) (h2 : e ≤ c.lastEra) (h : EraOf i c e era) (hn : c.first (e + 1) ≤ n) :
    era.getBlock n = some none := by
  obtain ⟨a, b, ha, hb, hl, hf⟩ := era_ends i c he e era h1 h2 h
  unfold Era.getBlock
  rw [ha, hb]
  simp only
  rw [if_neg (by simp; omega)]

/-! ## The search -/

theorem search_ok (i : Inputs Tx Rc Wd) (c : Chain Tx Rc Wd) (he : Eras c) (hh : HonestEra i c) (links : List Nat)
    (hl : links.Perm (List.range (c.lastEra + 1))) (e n : Nat) (h1 : 574 ≤ e) (h2 : e ≤ c.lastEra)
    (hn : c.first e ≤ n) (hn' : n < c.first (e + 1)) (fuel start stop : Nat) (hs : 574 ≤ start) (hse : start ≤ e)
    (hes : e ≤ stop) (hst : stop ≤ c.lastEra) (hf : stop + 1 - start ≤ fuel) :
    search i.site links c.lastEra n fuel start stop = i.site.era e := by
  induction fuel generalizing start stop with
  | zero => omega
  | succ k ih =>
    unfold search
    rw [if_neg (by omega)]
    simp only
    have hmid : start ≤ (start + stop) / 2 ∧ (start + stop) / 2 ≤ stop := by omega
    have hend : (start + stop) / 2 = c.lastEra → start = c.lastEra ∧ stop = c.lastEra := by omega
    generalize (start + stop) / 2 = mid at hmid hend
    obtain ⟨era, herae, hera, hfirst⟩ := hh.file e h1 h2
    obtain ⟨m, hm, hmo, hmf⟩ := hh.file mid (by omega) (by omega)
    obtain ⟨a, b, ha, hb, hlast, hnum⟩ := era_ends i c he mid m (by omega) (by omega) hmo
    rw [perm_contains links _ mid hl, if_neg (by simp; omega), hmf a ha]
    simp only [Res.bind]
    have hcont := era_contains i c he e n era h1 h2 hera hn
    rw [decide_eq_true hn'] at hcont
    by_cases hlastmid : mid + 1 > c.lastEra
    · rw [if_pos hlastmid]
      have : mid = e := by have := hend (by omega); omega
      subst this
      rw [herae] at hm
      cases hm
      rw [herae]
      simp only [Res.bind, hcont, if_true]
    · rw [if_neg hlastmid, perm_contains links _ (mid + 1) hl, if_neg (by simp; omega)]
      obtain ⟨m', hm', hmo', hmf'⟩ := hh.file (mid + 1) (by omega) (by omega)
      obtain ⟨a', b', ha', hb', hlast', hnum'⟩ := era_ends i c he (mid + 1) m' (by omega) (by omega) hmo'
      rw [hmf' a' ha']
      simp only [Res.bind]
      have ha'n : a'.number = c.first (mid + 1) := by rcases hnum' with h | ⟨h, _⟩ <;> omega
      rcases Nat.lt_trichotomy mid e with hlt | heq | hgt
      · have hle := first_le c he (mid + 1) e (by omega) (by omega) (by omega)
        have hlt' := first_lt c he mid (mid + 1) (by omega) (by omega) (by omega)
        have han : a.number < n := by rcases hnum with h | ⟨_, h⟩ <;> omega
        have hmc := era_contains i c he mid n m (by omega) (by omega) hmo (by omega)
        rw [decide_eq_false (by omega)] at hmc
        have hgo := ih (mid + 1) stop (by omega) (by omega) hes hst (by omega)
        rw [hm]
        simp only [Res.bind, hmc, Bool.false_eq_true, if_false, if_pos han, hgo]
        split <;> rfl
      · subst heq
        rw [herae] at hm
        cases hm
        rw [if_pos (by rcases hnum with h | ⟨_, h⟩ <;> omega), herae]
        simp only [Res.bind, hcont, if_true]
      · have hlt' := first_le c he (e + 1) mid (by omega) (by omega) (by omega)
        have han : a.number = c.first mid := by rcases hnum with h | ⟨h, _⟩ <;> omega
        rw [if_neg (by omega), if_neg (by omega)]
        exact ih start (mid - 1) hs (by omega) (by omega) (by omega) (by omega)

theorem fetchEra_ok (i : Inputs Tx Rc Wd) (c : Chain Tx Rc Wd) (he : Eras c) (hh : HonestEra i c) (links : List Nat)
    (hl : links.Perm (List.range (c.lastEra + 1))) (e n : Nat) (h1 : 574 ≤ e) (h2 : e ≤ c.lastEra)
    (hn : c.first e ≤ n) (hn' : n < c.first (e + 1)) : fetchEra i.site links n = i.site.era e := by
  have := first_le c he 574 e (by omega) h1 (by omega)
  have hm := he.merge
  unfold fetchEra
  rw [if_neg (by unfold mergeBlock; omega), perm_max links c.lastEra hl]
  exact search_ok i c he hh links hl e n h1 h2 hn hn' _ _ _ (Nat.le_refl _) h1 h2 (Nat.le_refl _) (Nat.le_refl _)

end Verif.E2hsGen
