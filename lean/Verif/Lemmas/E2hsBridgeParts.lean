import Verif.Lemmas.E2hsBridgeLive
import Verif.Props.Epochs

/-! # Lemmas for the range of the E2HS bridge -/

namespace Verif.E2hsBridge
open Verif.HeaderValidator (Verdict)
open Verif.E2store (Res Entry)
open Verif.Archive (e2hsFormat readTuples)
open Verif.Props (blockRange_mem epochPart_eq)
open Verif.Props.FileBridge

variable {Hd Tx Rc Wd P : Type}

theorem rangeEnd_iff (range : BlockRange) (files : List Nat) (stop : Nat) :
    rangeEnd range files = some stop ↔ EndsAt range files stop := by
  unfold rangeEnd EndsAt
  cases h : range.stop with
  | some n => simp
  | none =>
    simp only [Option.map_eq_some_iff, blocksPerFile]
    constructor
    · rintro ⟨m, hm, rfl⟩
      obtain ⟨h1, h2⟩ := List.max?_eq_some_iff.mp hm
      exact .inr ⟨by trivial, m, h1, h2, by omega⟩
    · rintro (h' | ⟨-, m, h1, h2, rfl⟩)
      · cases h'
      · exact ⟨m, List.max?_eq_some_iff.mpr ⟨h1, h2⟩, by omega⟩

theorem validateTuple_iff (env : Env Hd Tx Rc Wd) (t : Tuple Hd Tx Rc Wd) :
    validateTuple env t = .accept ↔ Checked env t := by
  have hhead : validateHeader env t = .accept ↔
      ((∀ p, t.headerWithProof.2 ≠ .capella p) → (∀ p, t.headerWithProof.2 ≠ .deneb p) →
        ∀ cache source, (HeaderValidator.validate env.H env.net env.trusted cache source
          (env.lib.hdr t.headerWithProof.1) t.headerWithProof.2).1 = .accept) := by
    unfold validateHeader
    cases hp : t.headerWithProof.2 with
    | capella p => simp
    | deneb p => simp
    | hashes p =>
      simp only [HeaderValidator.validate]
      exact ⟨fun h _ _ _ _ => h, fun h => h (fun _ hx => nomatch hx) (fun _ hx => nomatch hx) [] fun _ => none⟩
    | roots p =>
      simp only [HeaderValidator.validate]
      exact ⟨fun h _ _ _ _ => h, fun h => h (fun _ hx => nomatch hx) (fun _ hx => nomatch hx) [] fun _ => none⟩
  have hbody : HistoryValidator.validateBody env.lib t.body t.headerWithProof.1 = true ↔
      (env.lib.view t.headerWithProof.1).transactionsRoot = env.lib.trieRoot (t.body.transactions.map env.lib.tx.enc) ∧
      (env.lib.view t.headerWithProof.1).ommersHash = env.lib.keccak (env.lib.ommers.enc t.body.ommers) ∧
      ∀ ws, t.body.withdrawals = some ws →
        (env.lib.view t.headerWithProof.1).withdrawalsRoot = some (env.lib.trieRoot (ws.map env.lib.withdrawal.enc)) := by
    unfold HistoryValidator.validateBody
    by_cases h1 : env.lib.keccak (env.lib.ommers.enc t.body.ommers) = (env.lib.view t.headerWithProof.1).ommersHash
    · rw [if_neg (by simp [h1])]
      by_cases h2 : env.lib.trieRoot (t.body.transactions.map env.lib.tx.enc) =
          (env.lib.view t.headerWithProof.1).transactionsRoot
      · rw [if_neg (by simp [h2])]
        cases hw : t.body.withdrawals with
        | none => simp [h1, h2]
        | some ws =>
          cases hr : (env.lib.view t.headerWithProof.1).withdrawalsRoot with
          | none => simp
          | some root => simp [h1, h2, eq_comm]
      · rw [if_pos h2]
        simp [Ne.symm h2]
    · rw [if_pos h1]
      simp [Ne.symm h1]
  have hrec : HistoryValidator.validateReceipts env.lib t.receipts t.headerWithProof.1 = true ↔
      HistoryValidator.CommitsReceipts env.lib t.headerWithProof.1 t.receipts := by
    simp [HistoryValidator.validateReceipts, HistoryValidator.CommitsReceipts, eq_comm]
  constructor
  · intro h
    unfold validateTuple at h
    split at h
    · rename_i hh
      split at h
      · cases h
      · rename_i hb
        split at h
        · cases h
        · rename_i hr
          obtain ⟨b1, b2, b3⟩ := hbody.mp (by simpa using hb)
          exact ⟨hhead.mp hh, b1, b2, b3, hrec.mp (by simpa using hr)⟩
    · rename_i v hv
      exact absurd h hv
  · rintro ⟨h1, h2, h3, h4, h5⟩
    unfold validateTuple
    rw [hhead.mpr h1]
    simp only
    rw [hbody.mpr ⟨h2, h3, h4⟩, hrec.mpr h5]
    rfl

/-- The parts of a range that ends below the last epoch of `u64`. -/
structure PartsOf (start stop : Nat) (all : List Part) : Prop where
  nodup : (all.map (·.1)).Nodup
  mem : ∀ p, p ∈ all ↔ start / 8192 ≤ p.1 ∧ p.1 ≤ stop / 8192 ∧
    p.2 = if start ≤ p.1 * 8192 ∧ p.1 * 8192 + 8191 ≤ stop then none
      else some (max start (p.1 * 8192), min stop (p.1 * 8192 + 8191))

theorem partsOf (start stop : Nat) (hstop : stop + 8192 < 2 ^ 64) (order : List Part → List Part)
    (hord : ∀ l, (order l).Perm l) :
    ∃ l, Epochs.blockRangeToEpochs start stop = some l ∧ PartsOf start stop (order l) := by
  obtain ⟨l, h1, h2, h3⟩ := blockRange_mem (start := start) hstop
  refine ⟨l, h1, ((hord l).map _).nodup_iff.mpr h2, ?_⟩
  intro p
  rw [(hord l).mem_iff, h3]
  constructor
  · rintro ⟨ha, hb, hc⟩
    rw [epochPart_eq (by omega)] at hc
    exact ⟨ha, hb, (congrArg Prod.snd (Option.some.inj hc)).symm⟩
  · rintro ⟨ha, hb, hc⟩
    refine ⟨ha, hb, ?_⟩
    rw [epochPart_eq (by omega), ← hc]

/-- A block of the epoch is in the part exactly when it is in the range. -/
theorem inPart_iff {start stop : Nat} {all : List Part} (h : PartsOf start stop all) {p : Part} (hp : p ∈ all)
    (env : Env Hd Tx Rc Wd) (t : Tuple Hd Tx Rc Wd) (ht : (number env t).toNat / 8192 = p.1) :
    inPart env t p.2 = true ↔ start ≤ (number env t).toNat ∧ (number env t).toNat ≤ stop := by
  obtain ⟨h1, h2, h3⟩ := (h.mem p).mp hp
  rw [h3]
  split
  · simp only [inPart, true_iff]; omega
  · simp only [inPart, Bool.not_eq_true', Bool.or_eq_false_iff, decide_eq_false_iff_not]
    omega

theorem filter_due {start stop : Nat} {all : List Part} (h : PartsOf start stop all) {p : Part} (hp : p ∈ all)
    (env : Env Hd Tx Rc Wd) (ts : List (Tuple Hd Tx Rc Wd)) (hown : OwnBlocks env p.1 ts) :
    ts.filter (wanted env p) = due env start stop ts := by
  unfold due
  apply List.filter_congr
  intro t ht
  rw [Bool.eq_iff_iff]
  refine Iff.trans ?_ (@decide_eq_true_iff _ (_)).symm
  unfold wanted
  rw [Bool.and_eq_true, inPart_iff h hp env t (hown t ht), beq_iff_eq, validateTuple_iff]

theorem launch_inv (env : Env Hd Tx Rc Wd) (range : BlockRange) (files : List Nat) (order : List Part → List Part)
    (hord : ∀ l, (order l).Perm l) (stop : Nat) (hend : EndsAt range files stop) (hstop : stop + 8192 < 2 ^ 64) :
    ∃ all, PartsOf range.start stop all ∧ (launch env range files order : State Hd Tx Rc Wd P).main = .loop all none ∧
      Inv env all (launch env range files order : State Hd Tx Rc Wd P) := by
  obtain ⟨l, h1, h2⟩ := partsOf range.start stop hstop order hord
  have hm : (launch env range files order : State Hd Tx Rc Wd P).main = .loop (order l) none := by
    simp only [launch, (rangeEnd_iff range files stop).mpr hend, h1]
  refine ⟨order l, h2, hm, ?_⟩
  refine ⟨fun b hb => (nomatch hb), ?_, ?_, List.Perm.refl _, rfl, fun p _ => .inl rfl, (fun b hb => nomatch hb), ?_⟩
  · simp [launch]
  · simp [launch]
  · rw [hm]
    exact ⟨[], rfl, rfl, fun p hp => (nomatch hp), fun p _ => rfl, fun p hp => nomatch hp⟩

theorem reach {env : Env Hd Tx Rc Wd} {range : BlockRange} {files : List Nat} {order : List Part → List Part}
    (hord : ∀ l, (order l).Perm l) {stop : Nat} (hend : EndsAt range files stop) (hstop : stop + 8192 < 2 ^ 64)
    {s : State Hd Tx Rc Wd P} (hr : Reachable env range files order s) :
    ∃ all, PartsOf range.start stop all ∧ Inv env all s := by
  obtain ⟨es, rfl⟩ := hr
  obtain ⟨all, h1, -, h2⟩ := launch_inv env range files order hord stop hend hstop (P := P)
  exact ⟨all, h1, run_inv env all h1.nodup _ h2 es⟩

/-- Every block of a file that was read is where the file says. -/
theorem readTuples_at {env : Env Hd Tx Rc Wd} (n : Nat) (entries : List Entry) (ts : List (Tuple Hd Tx Rc Wd))
    (h : readTuples (e2hsFormat env.codecs) n entries = .ok ts) (i : Nat) (t : Tuple Hd Tx Rc Wd)
    (hi : ts[i]? = some t) :
    3 ≤ (entries.drop (3 * i)).length ∧ (e2hsFormat env.codecs).read ((entries.drop (3 * i)).take 3) = .ok t := by
  have hw : (e2hsFormat env.codecs).width = 3 := rfl
  induction n generalizing entries ts i with
  | zero =>
    simp only [readTuples, Res.ok.injEq] at h
    subst h; cases hi
  | succ n ih =>
    rw [readTuples] at h
    split at h
    · cases h
    · rename_i hl
      cases hr : (e2hsFormat env.codecs).read (List.take (e2hsFormat env.codecs).width entries) with
      | err => rw [hr] at h; cases h
      | panic => rw [hr] at h; cases h
      | ok x =>
        rw [hr] at h
        simp only [Res.bind] at h
        cases hq : readTuples (e2hsFormat env.codecs) n (List.drop (e2hsFormat env.codecs).width entries) with
        | err => rw [hq] at h; cases h
        | panic => rw [hq] at h; cases h
        | ok ts' =>
          rw [hq] at h
          simp only [Res.map, Res.bind, Res.ok.injEq] at h
          subst h
          cases i with
          | zero =>
            simp only [List.getElem?_cons_zero, Option.some.injEq] at hi
            subst hi
            rw [hw] at hl hr
            exact ⟨by simp only [Nat.mul_zero, List.drop_zero]; omega, by simpa using hr⟩
          | succ i =>
            simp only [List.getElem?_cons_succ] at hi
            have := ih _ _ hq i hi
            rw [List.drop_drop, hw, show 3 + 3 * i = 3 * (i + 1) by omega] at this
            exact this

theorem readTuples_length {env : Env Hd Tx Rc Wd} (n : Nat) (entries : List Entry) (ts : List (Tuple Hd Tx Rc Wd))
    (h : readTuples (e2hsFormat env.codecs) n entries = .ok ts) : ts.length = n := by
  induction n generalizing entries ts with
  | zero =>
    simp only [readTuples, Res.ok.injEq] at h
    subst h; rfl
  | succ n ih =>
    rw [readTuples] at h
    split at h
    · cases h
    · cases hr : (e2hsFormat env.codecs).read (List.take (e2hsFormat env.codecs).width entries) with
      | err => rw [hr] at h; cases h
      | panic => rw [hr] at h; cases h
      | ok x =>
        rw [hr] at h
        simp only [Res.bind] at h
        cases hq : readTuples (e2hsFormat env.codecs) n (List.drop (e2hsFormat env.codecs).width entries) with
        | err => rw [hq] at h; cases h
        | panic => rw [hq] at h; cases h
        | ok ts' =>
          rw [hq] at h
          simp only [Res.map, Res.bind, Res.ok.injEq] at h
          subst h
          simp [ih _ _ hq]

/-- The tuples at two lengths agree. -/
theorem readTuples_take {env : Env Hd Tx Rc Wd} (n m : Nat) (entries : List Entry) (ts us : List (Tuple Hd Tx Rc Wd))
    (h : readTuples (e2hsFormat env.codecs) n entries = .ok ts) (h' : readTuples (e2hsFormat env.codecs) m entries = .ok us)
    (hle : n ≤ m) : ts = us.take n := by
  apply List.ext_getElem?
  intro i
  have hl := readTuples_length n entries ts h
  have hl' := readTuples_length m entries us h'
  by_cases hi : i < n
  · obtain ⟨t, ht⟩ : ∃ t, ts[i]? = some t := ⟨ts[i], List.getElem?_eq_getElem (by omega)⟩
    obtain ⟨u, hu⟩ : ∃ u, us[i]? = some u := ⟨us[i], List.getElem?_eq_getElem (by omega)⟩
    have h1 := (readTuples_at n entries ts h i t ht).2
    have h2 := (readTuples_at m entries us h' i u hu).2
    rw [h1] at h2
    simp only [Res.ok.injEq] at h2
    rw [ht, List.getElem?_take, if_pos hi, hu, h2]
  · rw [List.getElem?_eq_none (by omega), List.getElem?_eq_none (by simp; omega)]

theorem openFile_ok {bytes : Bytes} {entries : List Entry} {n : Nat} (h : openFile bytes = .ok (entries, n)) :
    ∃ es, E2store.deserialize bytes = .ok es ∧ entries = es.drop 1 := by
  unfold openFile at h
  cases hd : E2store.deserialize bytes with
  | err => rw [hd] at h; cases h
  | panic => rw [hd] at h; cases h
  | ok es =>
    rw [hd] at h
    simp only [Res.bind] at h
    cases hl : es.getLast? with
    | none => rw [hl] at h; cases h
    | some last =>
      rw [hl] at h
      simp only at h
      cases hi : Archive.readIndex [65552] last with
      | err => rw [hi] at h; cases h
      | panic => rw [hi] at h; cases h
      | ok index =>
        rw [hi] at h
        simp only [Res.map, Res.bind, Res.ok.injEq, Prod.mk.injEq] at h
        exact ⟨es, rfl, h.1.symm⟩

/-- A file that can be read to the end. -/
theorem file_open {env : Env Hd Tx Rc Wd} {e : Nat} {ts : List (Tuple Hd Tx Rc Wd)} (h : File env e ts) :
    ∃ bytes entries, env.download e = some bytes ∧ openFile bytes = .ok (entries, ts.length) ∧
      readTuples (e2hsFormat env.codecs) ts.length entries = .ok ts := by
  obtain ⟨bytes, h1, h2⟩ := h
  unfold Archive.E2hs.iterTuples at h2
  cases hd : E2store.deserialize bytes with
  | err => rw [hd] at h2; cases h2
  | panic => rw [hd] at h2; cases h2
  | ok es =>
    rw [hd] at h2
    simp only [Res.bind] at h2
    cases hl : es.getLast? with
    | none => rw [hl] at h2; cases h2
    | some last =>
      rw [hl] at h2
      simp only at h2
      cases hi : Archive.readIndex [65552] last with
      | err => rw [hi] at h2; cases h2
      | panic => rw [hi] at h2; cases h2
      | ok index =>
        rw [hi] at h2
        simp only at h2
        cases hr : readTuples (e2hsFormat env.codecs) index.count.toNat (es.drop 1) with
        | err => rw [hr] at h2; cases h2
        | panic => rw [hr] at h2; cases h2
        | ok ts' =>
          rw [hr] at h2
          simp only [Res.ok.injEq] at h2
          subst h2
          have hlen := readTuples_length _ _ _ hr
          refine ⟨bytes, es.drop 1, h1, ?_, by rw [hlen]; exact hr⟩
          unfold openFile
          rw [hd]
          simp only [Res.bind, hl, hi, Res.map, hlen]

/-! ## No panic, and a way to the end -/

theorem validateTuple_safe {env : Env Hd Tx Rc Wd} {t : Tuple Hd Tx Rc Wd} (h : HeaderSafe env t) :
    validateTuple env t ≠ .abort := by
  have hh : validateHeader env t ≠ .abort := by
    unfold validateHeader
    unfold HeaderSafe at h
    cases hp : t.headerWithProof.2 with
    | capella p => simp
    | deneb p => simp
    | hashes p =>
      rw [hp] at h
      exact h (fun _ hx => nomatch hx) (fun _ hx => nomatch hx) [] fun _ => none
    | roots p =>
      rw [hp] at h
      exact h (fun _ hx => nomatch hx) (fun _ hx => nomatch hx) [] fun _ => none
  unfold validateTuple
  split
  · split
    · simp
    · split <;> simp
  · exact hh

theorem nextTuple_of {env : Env Hd Tx Rc Wd} {entries : List Entry} {t : Tuple Hd Tx Rc Wd}
    (h1 : 3 ≤ entries.length) (h2 : (e2hsFormat env.codecs).read (entries.take 3) = .ok t) :
    nextTuple env entries = some t := by
  have hw : (e2hsFormat env.codecs).width = 3 := rfl
  unfold nextTuple
  rw [hw, if_neg (by omega), h2]

/-- While a file that can be read is read, the next block is one of it. -/
theorem reading_next {env : Env Hd Tx Rc Wd} {part : Part} {entries : List Entry} {n : Nat}
    {l ts : List (Tuple Hd Tx Rc Wd)} (h : Reading env part entries (n + 1) l) (hf : File env part.1 ts) :
    ∃ t ∈ ts, nextTuple env entries = some t := by
  obtain ⟨bytes, entries0, ts', h1, h2, h3, h4, h5⟩ := h
  obtain ⟨bytes', entries', h1', h2', h3'⟩ := file_open hf
  rw [h1] at h1'
  simp only [Option.some.injEq] at h1'
  subst h1'
  rw [h2] at h2'
  simp only [Res.ok.injEq, Prod.mk.injEq] at h2'
  obtain ⟨rfl, hlen⟩ := h2'
  have hlt : ts'.length < ts.length := by omega
  obtain ⟨ha, hb⟩ := readTuples_at _ _ _ h3' ts'.length _ (List.getElem?_eq_getElem hlt)
  exact ⟨ts[ts'.length], List.getElem_mem hlt, by rw [h3]; exact nextTuple_of ha hb⟩

theorem step_no_panic (env : Env Hd Tx Rc Wd) (all : List Part) (s : State Hd Tx Rc Wd P) (h : Inv env all s)
    (hf : ∀ p ∈ all, ∃ ts, File env p.1 ts ∧ ∀ t ∈ ts, HeaderSafe env t) (hm : s.main ≠ .panicked) (ev : Event P) :
    (step env s ev).main ≠ .panicked := by
  cases ev with
  | tick d => exact hm
  | block i => simp only [step]; split <;> exact hm
  | content i j c => simp only [step]; split <;> (try split) <;> exact hm
  | reply i j k r => simp only [step]; split <;> (try split) <;> (try split) <;> exact hm
  | main =>
    have hi := h.main
    simp only [step]
    unfold stepMain
    split
    · simp
    · simp
    · rename_i part todo latest hmain
      rw [hmain] at hi
      obtain ⟨past, h1, -⟩ := hi
      obtain ⟨ts, hts, -⟩ := hf part (by rw [← h1]; simp)
      obtain ⟨bytes, entries, ha, hb, -⟩ := file_open hts
      rw [ha]
      simp only [hb]
      simp
    · simp
    · simp
    · rename_i part entries n todo latest hmain
      rw [hmain] at hi
      obtain ⟨past, h1, h2, h3, h4, h5, h6⟩ := hi
      obtain ⟨ts, hts, hsafe⟩ := hf part (by rw [← h1]; simp)
      obtain ⟨t, ht, hn⟩ := reading_next h4 hts
      rw [hn]
      simp only
      split
      · simp
      · split
        · rename_i hv
          exact absurd hv (validateTuple_safe (hsafe t ht))
        · simp
        · split
          · exact hm
          · simp
    · split
      · simp
      · exact hm
    · split
      · simp
      · exact hm
    · exact hm
    · exact hm

theorem run_append (env : Env Hd Tx Rc Wd) (s : State Hd Tx Rc Wd P) (es es' : List (Event P)) :
    run env (run env s es) es' = run env s (es ++ es') := by
  simp [run, List.foldl_append]

/-- From every state there is a way to the end. -/
theorem run_to_end (env : Env Hd Tx Rc Wd) (all : List Part) (hall : (all.map (·.1)).Nodup) (hl : 0 < env.offerLimit)
    (s : State Hd Tx Rc Wd P) (h : Inv env all s) :
    ∃ es, (run env s es).main = .finished ∨ (run env s es).main = .panicked := by
  generalize hr : rank env s = r
  induction r using less_wf.induction generalizing s with
  | _ r ih =>
    by_cases h1 : s.main = .finished
    · exact ⟨[], .inl h1⟩
    by_cases h2 : s.main = .panicked
    · exact ⟨[], .inr h2⟩
    obtain ⟨d, ev, hs, hne⟩ := never_stuck env all s h hl h1 h2
    have hinv := step_inv env all hall _ (step_inv env all hall s h (.tick d)) ev
    rcases step_rank env (step env s (.tick d)) ev hs with he | hlt
    · exact absurd he hne
    · have : rank env (step env s (.tick d)) = rank env s := tick_rank env s d
      rw [this, hr] at hlt
      obtain ⟨es, he⟩ := ih _ hlt _ hinv rfl
      exact ⟨.tick d :: ev :: es, he⟩

/-! ## A census that always fails -/

/-- Nothing was offered and nothing will be. -/
def Quiet (s : State Hd Tx Rc Wd P) : Prop := ∀ b ∈ s.blocks, ∀ c ∈ b.contents, c.queue = [] ∧ c.offers = []

theorem quiet_set {s s' : State Hd Tx Rc Wd P} {i : Nat} {b : BlockTask Hd Tx Rc Wd P} (h : Quiet s)
    (hs : s'.blocks = s.blocks.set i b) (hb : ∀ c ∈ b.contents, c.queue = [] ∧ c.offers = []) : Quiet s' := by
  intro x hx
  rw [hs] at hx
  rcases mem_set hx with rfl | hx
  · exact hb
  · exact h x hx

theorem stepBlock_quiet (env : Env Hd Tx Rc Wd) (clock : Nat) (b : BlockTask Hd Tx Rc Wd P)
    (h : ∀ c ∈ b.contents, c.queue = [] ∧ c.offers = []) :
    ∀ c ∈ (stepBlock env clock b).1.contents, c.queue = [] ∧ c.offers = [] := by
  unfold stepBlock
  split
  · intro c hc; simp only [List.mem_singleton] at hc; subst hc; exact ⟨rfl, rfl⟩
  · split
    · intro c hc
      simp only [List.mem_append, List.mem_singleton] at hc
      rcases hc with hc | rfl
      · exact h c hc
      · exact ⟨rfl, rfl⟩
    · exact h
  · split
    · intro c hc
      simp only [List.mem_append, List.mem_cons, List.not_mem_nil, or_false] at hc
      rcases hc with hc | rfl | rfl
      · exact h c hc
      · exact ⟨rfl, rfl⟩
      · exact ⟨rfl, rfl⟩
    · exact h
  · split <;> exact h
  · exact h

theorem stepMain_quiet (env : Env Hd Tx Rc Wd) (s : State Hd Tx Rc Wd P) (h : Quiet s) : Quiet (stepMain env s) := by
  unfold stepMain
  split <;> (try split) <;> (try split) <;> (try split) <;> (try split) <;> first | exact h | skip
  all_goals
    intro b hb
    simp only [List.mem_append, List.mem_singleton] at hb
    rcases hb with hb | rfl
    · exact h b hb
    · intro c hc; cases hc

theorem quiet_step (env : Env Hd Tx Rc Wd) (s : State Hd Tx Rc Wd P) (h : Quiet s) (ev : Event P) (hs : IsStep ev)
    (hne : step env s ev ≠ s) : ∃ ev', IsStep ev' ∧ step env s ev' ≠ s ∧ Quiet (step env s ev') := by
  cases ev with
  | tick d => cases hs
  | main => exact ⟨.main, trivial, hne, stepMain_quiet env s h⟩
  | block i =>
    refine ⟨.block i, trivial, hne, ?_⟩
    simp only [step]
    split
    · exact h
    · rename_i b hb
      exact quiet_set h rfl (stepBlock_quiet env s.clock b (h b (mem_of_getElem? hb)))
  | content i j census =>
    simp only [step] at hne
    split at hne
    · exact absurd rfl hne
    · rename_i b hb
      split at hne
      · exact absurd rfl hne
      · rename_i c hc
        obtain ⟨h1, h2⟩ := h b (mem_of_getElem? hb) c (mem_of_getElem? hc)
        cases ha : c.asked with
        | some a =>
          exfalso
          apply hne
          simp only [stepContent, ha, h1]
          rw [set_self hc, set_self hb]
          rfl
        | none =>
          refine ⟨.content i j none, trivial, ?_, ?_⟩
          · intro he
            have hil : i < s.blocks.length := (List.getElem?_eq_some_iff.mp hb).1
            have hjl : j < b.contents.length := (List.getElem?_eq_some_iff.mp hc).1
            have he' := congrArg (fun s : State Hd Tx Rc Wd P => s.blocks[i]?.map fun b => b.contents[j]?.map (·.asked)) he
            simp only [step, hb, hc, stepContent, ha, List.getElem?_set_self hil, List.getElem?_set_self hjl,
              Option.map_some] at he'
            cases he'
          · simp only [step, hb, hc, stepContent, ha]
            refine quiet_set h rfl ?_
            intro x hx
            rcases mem_set hx with rfl | hx
            · exact ⟨rfl, h2⟩
            · exact h b (mem_of_getElem? hb) x hx
  | reply i j k r =>
    simp only [step] at hne
    split at hne
    · exact absurd rfl hne
    · rename_i b hb
      split at hne
      · exact absurd rfl hne
      · rename_i c hc
        obtain ⟨h1, h2⟩ := h b (mem_of_getElem? hb) c (mem_of_getElem? hc)
        simp only [endOffer, h2, List.getElem?_nil] at hne
        exact absurd rfl hne

/-- There is a way to the end without offers. -/
theorem quiet_to_end (env : Env Hd Tx Rc Wd) (all : List Part) (hall : (all.map (·.1)).Nodup) (hl : 0 < env.offerLimit)
    (s : State Hd Tx Rc Wd P) (h : Inv env all s) (hq : Quiet s) :
    ∃ es, Quiet (run env s es) ∧ ((run env s es).main = .finished ∨ (run env s es).main = .panicked) := by
  generalize hr : rank env s = r
  induction r using less_wf.induction generalizing s with
  | _ r ih =>
    by_cases h1 : s.main = .finished
    · exact ⟨[], hq, .inl h1⟩
    by_cases h2 : s.main = .panicked
    · exact ⟨[], hq, .inr h2⟩
    obtain ⟨d, ev0, hs0, hne0⟩ := never_stuck env all s h hl h1 h2
    obtain ⟨ev, hs, hne, hq'⟩ := quiet_step env (step env s (.tick d)) hq ev0 hs0 hne0
    have hinv := step_inv env all hall _ (step_inv env all hall s h (.tick d)) ev
    rcases step_rank env (step env s (.tick d)) ev hs with he | hlt
    · exact absurd he hne
    · have : rank env (step env s (.tick d)) = rank env s := tick_rank env s d
      rw [this, hr] at hlt
      obtain ⟨es, he⟩ := ih _ hlt _ hinv hq' rfl
      exact ⟨.tick d :: ev :: es, he⟩

end Verif.E2hsBridge
