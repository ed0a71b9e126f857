import Verif.Lemmas.E2hsBridge

/-! # Lemmas for the executions of the E2HS bridge -/

namespace Verif.E2hsBridge
open Verif.HistoryValue (Lib Body Value)
open Verif.HeaderValidator (HeaderProof Net Trusted Verdict)
open Verif.E2store (Res Entry)
open Verif.Archive (E2hsTuple E2hsCodecs e2hsFormat readTuples)
open Verif.Census (OfferTrace)
open Verif.Props.FileBridge

variable {Hd Tx Rc Wd P : Type}

/-- A block of a file is offered. -/
def wanted (env : Env Hd Tx Rc Wd) (part : Part) (t : Tuple Hd Tx Rc Wd) : Bool :=
  inPart env t part.2 && validateTuple env t == .accept

/-- The first blocks of the file of an epoch were read, and the wanted ones are `l`; `entries` and `count` are left. -/
def Reading (env : Env Hd Tx Rc Wd) (part : Part) (entries : List Entry) (count : Nat)
    (l : List (Tuple Hd Tx Rc Wd)) : Prop :=
  ∃ bytes entries0 ts, env.download part.1 = some bytes ∧
    openFile bytes = .ok (entries0, ts.length + count) ∧ entries = entries0.drop (3 * ts.length) ∧
    readTuples (e2hsFormat env.codecs) ts.length entries0 = .ok ts ∧ l = ts.filter (wanted env part)

/-- The whole file was read. -/
def Full (env : Env Hd Tx Rc Wd) (st : Nat → List (Tuple Hd Tx Rc Wd)) (part : Part) : Prop :=
  ∃ entries, Reading env part entries 0 (st part.1)

/-- What the state of the launcher says about the blocks that were started (`st`) and the epochs that have ended. -/
def MainInv (env : Env Hd Tx Rc Wd) (all : List Part) (st : Nat → List (Tuple Hd Tx Rc Wd)) (dn : Nat → Prop) :
    Main → Prop
  | .loop todo latest => ∃ past, past ++ todo = all ∧ latest = past.getLast?.map (·.1) ∧
      (∀ p ∈ past, Full env st p) ∧ (∀ p ∈ todo, st p.1 = []) ∧ ∀ p ∈ past.dropLast, dn p.1
  | .reading part entries count todo latest => ∃ past, past ++ part :: todo = all ∧ latest = past.getLast?.map (·.1) ∧
      (∀ p ∈ past, Full env st p) ∧ Reading env part entries count (st part.1) ∧ (∀ p ∈ todo, st p.1 = []) ∧
      ∀ p ∈ past.dropLast, dn p.1
  | .waitPrevious previous latest todo => ∃ past part, past ++ part :: todo = all ∧ latest = part.1 ∧
      past.getLast?.map (·.1) = some previous ∧ (∀ p ∈ past, Full env st p) ∧ Full env st part ∧
      (∀ p ∈ todo, st p.1 = []) ∧ ∀ p ∈ past.dropLast, dn p.1
  | .waitLast latest => all.getLast?.map (·.1) = some latest ∧ (∀ p ∈ all, Full env st p) ∧ ∀ p ∈ all.dropLast, dn p.1
  | .finished => (∀ p ∈ all, Full env st p) ∧ ∀ p ∈ all, dn p.1
  | .panicked => ∃ a b, ∀ p ∈ all, p.1 ≠ a → p.1 ≠ b → dn p.1

theorem MainInv.mono {env : Env Hd Tx Rc Wd} {all : List Part} {st : Nat → List (Tuple Hd Tx Rc Wd)}
    {dn dn' : Nat → Prop} (h : ∀ e, dn e → dn' e) {m : Main} (hm : MainInv env all st dn m) :
    MainInv env all st dn' m := by
  cases m with
  | loop todo latest =>
    obtain ⟨past, h1, h2, h3, h4, h5⟩ := hm
    exact ⟨past, h1, h2, h3, h4, fun p hp => h _ (h5 p hp)⟩
  | reading part entries count todo latest =>
    obtain ⟨past, h1, h2, h3, h4, h5, h6⟩ := hm
    exact ⟨past, h1, h2, h3, h4, h5, fun p hp => h _ (h6 p hp)⟩
  | waitPrevious a b todo =>
    obtain ⟨past, part, h1, h2, h3, h4, h5, h6, h7⟩ := hm
    exact ⟨past, part, h1, h2, h3, h4, h5, h6, fun p hp => h _ (h7 p hp)⟩
  | waitLast e => exact ⟨hm.1, hm.2.1, fun p hp => h _ (hm.2.2 p hp)⟩
  | finished => exact ⟨hm.1, fun p hp => h _ (hm.2 p hp)⟩
  | panicked => obtain ⟨a, b, hm⟩ := hm; exact ⟨a, b, fun p hp h1 h2 => h _ (hm p hp h1 h2)⟩

/-- All tasks of an epoch have ended. -/
def Done (blocks : List (BlockTask Hd Tx Rc Wd P)) (e : Nat) : Prop := ∀ b ∈ blocks, b.epoch = e → b.phase = .done

theorem epochDone_iff (blocks : List (BlockTask Hd Tx Rc Wd P)) (e : Nat) :
    epochDone blocks e = true ↔ Done blocks e := by
  unfold epochDone Done
  simp only [List.all_eq_true, Bool.or_eq_true, bne_iff_ne, beq_iff_eq]
  constructor
  · intro h b hb he
    rcases h b hb with h | h
    · exact absurd he h
    · exact h
  · intro h b hb
    by_cases he : b.epoch = e
    · exact .inr (h b hb he)
    · exact .inl he

/-- The blocks that were started for an epoch. -/
def st (blocks : List (BlockTask Hd Tx Rc Wd P)) (e : Nat) : List (Tuple Hd Tx Rc Wd) :=
  blocks.filterMap fun b => if b.epoch = e then some b.tuple else none

theorem st_set {blocks : List (BlockTask Hd Tx Rc Wd P)} {i : Nat} {b b' : BlockTask Hd Tx Rc Wd P}
    (h : blocks[i]? = some b) (he : b'.epoch = b.epoch) (ht : b'.tuple = b.tuple) : st (blocks.set i b') = st blocks := by
  funext e
  unfold st
  have key : ∀ l : List (BlockTask Hd Tx Rc Wd P), (l.filterMap fun b => if b.epoch = e then some b.tuple else none) =
      (l.map fun b => (b.epoch, b.tuple)).filterMap fun x => if x.1 = e then some x.2 else none := by
    intro l; rw [List.filterMap_map]; rfl
  rw [key, key, map_set_same _ h (by rw [he, ht])]

theorem st_append (blocks : List (BlockTask Hd Tx Rc Wd P)) (e : Nat) (t : Tuple Hd Tx Rc Wd) (e' : Nat) :
    st (blocks ++ [newBlock e t]) e' = if e' = e then st blocks e' ++ [t] else st blocks e' := by
  unfold st
  rw [List.filterMap_append]
  by_cases h : e' = e
  · subst h; simp [newBlock]
  · rw [if_neg h]
    simp [newBlock, Ne.symm h]

/-- Counts of results. -/
def countReport (l : List (P × OfferTrace)) : Report :=
  ⟨(l.filter fun r => r.2 = .success .accepted).length,
   (l.filter fun r => r.2 ≠ .success .accepted ∧ r.2 ≠ .failed).length,
   (l.filter fun r => r.2 = .failed).length⟩

theorem countReport_cons (l : List (P × OfferTrace)) (p : P) (tr : OfferTrace) :
    countReport ((p, tr) :: l) = (countReport l).update tr := by
  cases tr with
  | failed => simp [countReport, Report.update]
  | success code =>
    by_cases hc : code = .accepted
    · subst hc; simp [countReport, Report.update]
    · simp [countReport, Report.update, hc]

structure Inv (env : Env Hd Tx Rc Wd) (all : List Part) (s : State Hd Tx Rc Wd P) : Prop where
  blocks : ∀ b ∈ s.blocks, BlockInv env s.clock b
  offerPermits : s.offerPermits + (s.blocks.map BlockTask.inFlight).sum = env.offerLimit
  blockPermits : s.blockPermits + (s.blocks.map BlockTask.holds).sum = env.offerLimit
  recorded : s.recorded.Perm (s.blocks.flatMap BlockTask.results)
  report : s.report = countReport s.recorded
  parts : ∀ p ∈ all, st s.blocks p.1 = [] ∨ ∃ entries count, Reading env p entries count (st s.blocks p.1)
  only : ∀ b ∈ s.blocks, ∃ p ∈ all, p.1 = b.epoch
  main : MainInv env all (st s.blocks) (Done s.blocks) s.main

/-- A change of one block that the launcher does not see. -/
structure BlockChange (env : Env Hd Tx Rc Wd) (clock : Nat) (b b' : BlockTask Hd Tx Rc Wd P) : Prop where
  epoch : b'.epoch = b.epoch
  tuple : b'.tuple = b.tuple
  inv : BlockInv env clock b → BlockInv env clock b'
  done : b.phase = .done → b'.phase = .done

theorem inv_block {env : Env Hd Tx Rc Wd} {all : List Part} {s : State Hd Tx Rc Wd P} (h : Inv env all s) {i : Nat}
    {b b' : BlockTask Hd Tx Rc Wd P} (hi : s.blocks[i]? = some b) (hc : BlockChange env s.clock b b')
    (op bp : Nat) (rep : Report) (rec : List (P × OfferTrace))
    (hop : op + b'.inFlight = s.offerPermits + b.inFlight) (hbp : bp + b'.holds = s.blockPermits + b.holds)
    (hrec : rec.Perm ((s.blocks.set i b').flatMap BlockTask.results)) (hrep : rep = countReport rec) :
    Inv env all { s with blocks := s.blocks.set i b', offerPermits := op, blockPermits := bp, report := rep, recorded := rec } where
  blocks x hx := by
    rcases mem_set hx with rfl | hx
    · exact hc.inv (h.blocks b (mem_of_getElem? hi))
    · exact h.blocks x hx
  offerPermits := by
    have := sum_set BlockTask.inFlight s.blocks i b b' hi
    have := h.offerPermits
    dsimp only; omega
  blockPermits := by
    have := sum_set BlockTask.holds s.blocks i b b' hi
    have := h.blockPermits
    dsimp only; omega
  recorded := hrec
  report := hrep
  parts := by
    dsimp only
    rw [st_set hi hc.epoch hc.tuple]; exact h.parts
  only x hx := by
    rcases mem_set hx with rfl | hx
    · rw [hc.epoch]; exact h.only b (mem_of_getElem? hi)
    · exact h.only x hx
  main := by
    dsimp only
    rw [st_set hi hc.epoch hc.tuple]
    refine h.main.mono ?_
    intro e he x hx hxe
    rcases mem_set hx with rfl | hx
    · exact hc.done (he b (mem_of_getElem? hi) (hc.epoch ▸ hxe))
    · exact he x hx hxe

theorem results_set_same {s : State Hd Tx Rc Wd P} {i : Nat} {b b' : BlockTask Hd Tx Rc Wd P} (hi : s.blocks[i]? = some b)
    (hr : b'.results = b.results) : (s.blocks.set i b').flatMap BlockTask.results = s.blocks.flatMap BlockTask.results := by
  rw [List.flatMap_def, List.flatMap_def, map_set_same _ hi hr]

theorem stepBlock_facts (env : Env Hd Tx Rc Wd) (clock : Nat) (b : BlockTask Hd Tx Rc Wd P) (hb : BlockInv env clock b) :
    BlockChange env clock b (stepBlock env clock b).1 ∧ (stepBlock env clock b).1.inFlight = b.inFlight ∧
    (stepBlock env clock b).1.results = b.results ∧
    (stepBlock env clock b).1.holds + (if (stepBlock env clock b).2 then 1 else 0) = b.holds := by
  refine ⟨⟨?_, ?_, stepBlock_inv env clock b, ?_⟩, ?_, ?_, ?_⟩
  · unfold stepBlock; split <;> (try rfl) <;> split <;> rfl
  · unfold stepBlock; split <;> (try rfl) <;> split <;> rfl
  · intro hd; unfold stepBlock; rw [hd]; exact hd
  · unfold stepBlock
    split
    · rename_i hp
      have hc := hb.2; rw [hp] at hc
      simp only at hc
      simp [BlockTask.inFlight, hc, headerByHash, Content.start, Content.inFlight]
    · split
      · simp [BlockTask.inFlight, headerByNumber, Content.start, Content.inFlight]
      · rfl
    · split
      · simp [BlockTask.inFlight, blockBody, blockReceipts, Content.start, Content.inFlight]
      · rfl
    · split <;> rfl
    · rfl
  · unfold stepBlock
    split
    · rename_i hp
      have hc := hb.2; rw [hp] at hc
      simp only at hc
      simp [BlockTask.results, hc, headerByHash, Content.start, Content.results]
    · split
      · simp [BlockTask.results, headerByNumber, Content.start, Content.results]
      · rfl
    · split
      · simp [BlockTask.results, blockBody, blockReceipts, Content.start, Content.results]
      · rfl
    · split <;> rfl
    · rfl
  · unfold stepBlock
    split
    · rename_i hp; simp [BlockTask.holds, hp]
    · rename_i hp; split <;> simp [BlockTask.holds, hp]
    · rename_i hp; split <;> simp [BlockTask.holds, hp]
    · rename_i hp; split <;> simp [BlockTask.holds, hp]
    · rename_i hp; simp

/-! ## The launcher -/

theorem nextTuple_some {env : Env Hd Tx Rc Wd} {entries : List Entry} {t : Tuple Hd Tx Rc Wd}
    (h : nextTuple env entries = some t) : 3 ≤ entries.length ∧ (e2hsFormat env.codecs).read (entries.take 3) = .ok t := by
  unfold nextTuple at h
  split at h
  · cases h
  · rename_i hl
    split at h
    · rename_i t' ht
      simp only [Option.some.injEq] at h
      subst h
      exact ⟨by have : (e2hsFormat env.codecs).width = 3 := rfl; omega, ht⟩
    · cases h

theorem readTuples_snoc {env : Env Hd Tx Rc Wd} (n : Nat) (entries : List Entry) (ts : List (Tuple Hd Tx Rc Wd))
    (t : Tuple Hd Tx Rc Wd) (h : readTuples (e2hsFormat env.codecs) n entries = .ok ts)
    (ht : nextTuple env (entries.drop (3 * n)) = some t) :
    readTuples (e2hsFormat env.codecs) (n + 1) entries = .ok (ts ++ [t]) := by
  have hw : (e2hsFormat env.codecs).width = 3 := rfl
  induction n generalizing entries ts with
  | zero =>
    simp only [readTuples, Res.ok.injEq] at h
    subst h
    obtain ⟨h1, h2⟩ := nextTuple_some ht
    simp only [Nat.mul_zero, List.drop_zero] at h1 h2
    simp only [readTuples, hw, if_neg (Nat.not_lt.mpr h1), h2, Res.bind, Res.map, List.nil_append]
  | succ n ih =>
    rw [readTuples] at h
    split at h
    · cases h
    · rename_i hl
      cases hr : (e2hsFormat env.codecs).read (List.take (e2hsFormat env.codecs).width entries) with
      | err => rw [hr] at h; cases h
      | panic => rw [hr] at h; cases h
      | ok x =>
        rw [hr] at h
        simp only [Res.bind] at h
        cases hq : readTuples (e2hsFormat env.codecs) n (List.drop (e2hsFormat env.codecs).width entries) with
        | err => rw [hq] at h; cases h
        | panic => rw [hq] at h; cases h
        | ok ts' =>
          rw [hq] at h
          simp only [Res.map, Res.bind, Res.ok.injEq] at h
          subst h
          have := ih _ _ hq (by rw [List.drop_drop, hw, show 3 + 3 * n = 3 * (n + 1) by omega]; exact ht)
          rw [readTuples, if_neg hl, hr]
          simp only [this, Res.map, Res.bind, List.cons_append]

theorem full_iff_file {env : Env Hd Tx Rc Wd} {part : Part} {l : List (Tuple Hd Tx Rc Wd)} {entries : List Entry}
    (h : Reading env part entries 0 l) : ∃ ts, File env part.1 ts ∧ l = ts.filter (wanted env part) := by
  obtain ⟨bytes, entries0, ts, h1, h2, -, h4, h5⟩ := h
  refine ⟨ts, ⟨bytes, h1, ?_⟩, h5⟩
  unfold openFile at h2
  unfold Archive.E2hs.iterTuples
  cases hd : E2store.deserialize bytes with
  | err => rw [hd] at h2; cases h2
  | panic => rw [hd] at h2; cases h2
  | ok es =>
    rw [hd] at h2
    simp only [Res.bind] at h2 ⊢
    cases hl : es.getLast? with
    | none => rw [hl] at h2; cases h2
    | some last =>
      rw [hl] at h2
      simp only at h2 ⊢
      cases hi : Archive.readIndex [65552] last with
      | err => rw [hi] at h2; cases h2
      | panic => rw [hi] at h2; cases h2
      | ok index =>
        rw [hi] at h2
        simp only [Res.map, Res.bind, Res.ok.injEq, Prod.mk.injEq, Nat.add_zero] at h2
        obtain ⟨rfl, hc⟩ := h2
        simp only [hc, h4]

theorem Reading.next {env : Env Hd Tx Rc Wd} {part : Part} {entries : List Entry} {n : Nat}
    {l : List (Tuple Hd Tx Rc Wd)} {t : Tuple Hd Tx Rc Wd} (h : Reading env part entries (n + 1) l)
    (ht : nextTuple env entries = some t) :
    Reading env part (entries.drop 3) n (if wanted env part t then l ++ [t] else l) := by
  obtain ⟨bytes, entries0, ts, h1, h2, h3, h4, h5⟩ := h
  refine ⟨bytes, entries0, ts ++ [t], h1, ?_, ?_, ?_, ?_⟩
  · rw [h2]; simp only [List.length_append, List.length_singleton, Res.ok.injEq, Prod.mk.injEq, true_and]; omega
  · rw [h3, List.drop_drop]; simp only [List.length_append, List.length_singleton]
    congr 1
  · rw [h3] at ht
    simpa using readTuples_snoc _ _ _ _ h4 ht
  · rw [List.filter_append, h5]
    by_cases hw : wanted env part t = true
    · simp [hw]
    · simp [hw]

theorem blocks_eq {s : State Hd Tx Rc Wd P} (m : Main) : ({ s with main := m } : State Hd Tx Rc Wd P).blocks = s.blocks := rfl

theorem inv_main {env : Env Hd Tx Rc Wd} {all : List Part} {s : State Hd Tx Rc Wd P} (h : Inv env all s) (m : Main)
    (hm : MainInv env all (st s.blocks) (Done s.blocks) m) : Inv env all { s with main := m } :=
  ⟨h.blocks, h.offerPermits, h.blockPermits, h.recorded, h.report, h.parts, h.only, hm⟩

theorem getLast_done {past : List Part} {dn : Nat → Prop} {e : Nat} (h : ∀ p ∈ past.dropLast, dn p.1)
    (hl : past.getLast?.map (·.1) = some e) (he : dn e) : ∀ p ∈ past, dn p.1 := by
  intro p hp
  cases hc : past.getLast? with
  | none => rw [hc] at hl; cases hl
  | some q =>
    rw [hc] at hl
    simp only [Option.map_some, Option.some.injEq] at hl
    have : past = past.dropLast ++ [q] := by
      have hne : past ≠ [] := by intro h0; rw [h0] at hp; cases hp
      have := List.dropLast_concat_getLast hne
      rw [List.getLast?_eq_some_getLast hne, Option.some.injEq] at hc
      rw [← hc, this]
    rw [this] at hp
    rcases List.mem_append.mp hp with hp | hp
    · exact h p hp
    · obtain rfl := List.mem_singleton.mp hp
      rw [hl]; exact he

/-- Epochs of which no block was started have ended. -/
theorem done_of_none {blocks : List (BlockTask Hd Tx Rc Wd P)} {e : Nat} (h : st blocks e = []) : Done blocks e := by
  intro b hb he
  have : b.tuple ∈ st blocks e := List.mem_filterMap.mpr ⟨b, hb, by simp [he]⟩
  rw [h] at this; cases this

theorem last_or_dropLast {past : List Part} {p : Part} (hp : p ∈ past) :
    past.getLast?.map (·.1) = some p.1 ∨ p ∈ past.dropLast := by
  have hne : past ≠ [] := by intro h0; rw [h0] at hp; cases hp
  have h := List.dropLast_concat_getLast hne
  rw [← h] at hp
  rcases List.mem_append.mp hp with hp | hp
  · exact .inr hp
  · left
    rw [List.getLast?_eq_some_getLast hne, List.mem_singleton.mp hp]; rfl

/-- The launcher may panic at the head of the loop. -/
theorem panic_loop {env : Env Hd Tx Rc Wd} {all : List Part} {blocks : List (BlockTask Hd Tx Rc Wd P)}
    {todo : List Part} {latest : Option Nat} (h : MainInv env all (st blocks) (Done blocks) (.loop todo latest)) :
    MainInv env all (st blocks) (Done blocks) .panicked := by
  obtain ⟨past, h1, h2, h3, h4, h5⟩ := h
  refine ⟨latest.getD 0, latest.getD 0, ?_⟩
  intro p hp ha _
  rw [← h1] at hp
  rcases List.mem_append.mp hp with hp | hp
  · rcases last_or_dropLast hp with hl | hl
    · rw [← h2] at hl; rw [hl] at ha; exact absurd rfl ha
    · exact h5 p hl
  · exact done_of_none (h4 p hp)

/-- The launcher may panic while it reads a file. -/
theorem panic_reading {env : Env Hd Tx Rc Wd} {all : List Part} {blocks : List (BlockTask Hd Tx Rc Wd P)}
    {part : Part} {entries : List Entry} {n : Nat} {todo : List Part} {latest : Option Nat}
    (h : MainInv env all (st blocks) (Done blocks) (.reading part entries n todo latest)) :
    MainInv env all (st blocks) (Done blocks) .panicked := by
  obtain ⟨past, h1, h2, h3, h4, h5, h6⟩ := h
  refine ⟨latest.getD 0, part.1, ?_⟩
  intro p hp ha hb
  rw [← h1] at hp
  rcases List.mem_append.mp hp with hp | hp
  · rcases last_or_dropLast hp with hl | hl
    · rw [← h2] at hl; rw [hl] at ha; exact absurd rfl ha
    · exact h6 p hl
  · rcases List.mem_cons.mp hp with rfl | hp
    · exact absurd rfl hb
    · exact done_of_none (h5 p hp)

theorem stepMain_inv (env : Env Hd Tx Rc Wd) (all : List Part) (hall : (all.map (·.1)).Nodup)
    (s : State Hd Tx Rc Wd P) (h : Inv env all s) : Inv env all (stepMain env s) := by
  have hm := h.main
  unfold stepMain
  split
  · rename_i hmain
    rw [hmain] at hm
    obtain ⟨past, h1, h2, h3, h4, h5⟩ := hm
    rw [List.append_nil] at h1
    subst h1
    refine inv_main h _ ⟨h3, ?_⟩
    intro p hp
    cases hl : past.getLast? with
    | none => rw [List.getLast?_eq_none_iff] at hl; rw [hl] at hp; cases hp
    | some q => rw [hl] at h2; cases h2
  · rename_i e hmain
    rw [hmain] at hm
    obtain ⟨past, h1, h2, h3, h4, h5⟩ := hm
    rw [List.append_nil] at h1
    subst h1
    exact inv_main h _ ⟨h2.symm, h3, h5⟩
  · rename_i part todo latest hmain
    rw [hmain] at hm
    have hpanic := panic_loop hm
    obtain ⟨past, h1, h2, h3, h4, h5⟩ := hm
    split
    · exact inv_main h _ hpanic
    · rename_i bytes hb
      split
      · rename_i entries count ho
        refine inv_main h _ ⟨past, h1, h2, h3, ⟨bytes, entries, [], hb, ?_, ?_, rfl, ?_⟩, fun p hp => h4 p (by simp [hp]), h5⟩
        · simpa using ho
        · simp
        · rw [h4 part (by simp)]; rfl
      · exact inv_main h _ hpanic
  · rename_i part entries todo hmain
    rw [hmain] at hm
    obtain ⟨past, h1, h2, h3, h4, h5, h6⟩ := hm
    have hp : past = [] := by
      cases hl : past.getLast? with
      | none => exact List.getLast?_eq_none_iff.mp hl
      | some q => rw [hl] at h2; cases h2
    subst hp
    refine inv_main h _ ⟨[part], h1, rfl, ?_, h5, fun p hp => nomatch hp⟩
    intro p hp
    obtain rfl := List.mem_singleton.mp hp
    exact ⟨_, h4⟩
  · rename_i part entries todo previous hmain
    rw [hmain] at hm
    obtain ⟨past, h1, h2, h3, h4, h5, h6⟩ := hm
    exact inv_main h _ ⟨past, part, h1, rfl, h2.symm, h3, ⟨_, h4⟩, h5, h6⟩
  · rename_i part entries n todo latest hmain
    rw [hmain] at hm
    have hpanic := panic_reading hm
    obtain ⟨past, h1, h2, h3, h4, h5, h6⟩ := hm
    split
    · exact inv_main h _ hpanic
    · rename_i t ht
      have hnext := h4.next ht
      have hw : (e2hsFormat env.codecs).width = 3 := rfl
      dsimp only
      split
      · rename_i hin
        refine inv_main h _ ⟨past, h1, h2, h3, ?_, h5, h6⟩
        rw [if_neg (by simp [wanted]; intro hx; simp [hx] at hin)] at hnext
        exact hnext
      · rename_i hin
        split
        · exact inv_main h _ hpanic
        · rename_i hv
          refine inv_main h _ ⟨past, h1, h2, h3, ?_, h5, h6⟩
          rw [if_neg (by simp [wanted, hv])] at hnext
          exact hnext
        · rename_i hv
          split
          · exact h
          · rename_i hbp
            have hin' : inPart env t part.2 = true := by simpa using hin
            rw [if_pos (by simp [wanted, hin', hv])] at hnext
            have hne : ∀ p ∈ past ++ todo, p.1 ≠ part.1 := by
              intro p hp heq
              rw [← h1] at hall
              rw [List.map_append, List.map_cons] at hall
              have hp' : part.1 ∈ (past ++ todo).map (·.1) := by rw [← heq]; exact List.mem_map.mpr ⟨p, hp, rfl⟩
              have hnd := (List.perm_middle (a := part.1) (l₁ := past.map (·.1)) (l₂ := todo.map (·.1))).nodup hall
              rw [← List.map_append] at hnd
              exact (List.nodup_cons.mp hnd).1 hp'
            have hst : ∀ e, e ≠ part.1 → st (s.blocks ++ [newBlock part.1 t]) e = st s.blocks e := by
              intro e he; rw [st_append, if_neg he]
            have hstp : st (s.blocks ++ [newBlock part.1 t]) part.1 = st s.blocks part.1 ++ [t] := by
              rw [st_append, if_pos rfl]
            have hpart : part ∈ all := by rw [← h1]; simp
            refine ⟨?_, ?_, ?_, ?_, h.report, ?_, ?_, ?_⟩
            · intro b hb
              rcases List.mem_append.mp hb with hb | hb
              · exact h.blocks b hb
              · obtain rfl := List.mem_singleton.mp hb
                exact newBlock_inv _ _ _ _
            · have := h.offerPermits
              simpa [newBlock, BlockTask.inFlight] using this
            · have := h.blockPermits
              have hn : (newBlock part.1 t : BlockTask Hd Tx Rc Wd P).holds = 1 := rfl
              simp only [List.map_append, List.sum_append, List.map_cons, List.map_nil, List.sum_cons, List.sum_nil, hn]
              omega
            · have := h.recorded
              simpa [newBlock, BlockTask.results] using this
            · intro p hp
              dsimp only
              by_cases he : p.1 = part.1
              · have : p = part := by
                  rw [← h1] at hp
                  rcases List.mem_append.mp hp with hp | hp
                  · exact absurd he (hne p (by simp [hp]))
                  · rcases List.mem_cons.mp hp with hp | hp
                    · exact hp
                    · exact absurd he (hne p (by simp [hp]))
                subst this
                right
                rw [hstp]
                exact ⟨_, _, hnext⟩
              · rw [hst _ he]; exact h.parts p hp
            · intro b hb
              rcases List.mem_append.mp hb with hb | hb
              · exact h.only b hb
              · obtain rfl := List.mem_singleton.mp hb
                exact ⟨part, hpart, rfl⟩
            · refine ⟨past, h1, h2, ?_, ?_, ?_, ?_⟩
              · intro p hp
                have := h3 p hp
                unfold Full at this ⊢
                dsimp only
                rw [hst _ (hne p (by simp [hp]))]
                exact this
              · dsimp only
                rw [hstp]
                exact hnext
              · intro p hp
                dsimp only
                rw [hst _ (hne p (by simp [hp]))]
                exact h5 p hp
              · intro p hp
                have hp' : p ∈ past := List.dropLast_subset _ hp
                intro b hb hbe
                dsimp only at hb
                rcases List.mem_append.mp hb with hb | hb
                · exact h6 p hp b hb hbe
                · obtain rfl := List.mem_singleton.mp hb
                  exact absurd hbe.symm (hne p (by simp [hp']))
  · rename_i previous latest todo hmain
    rw [hmain] at hm
    obtain ⟨past, part, h1, h2, h3, h4, h5, h6, h7⟩ := hm
    split
    · rename_i hd
      refine inv_main h _ ⟨past ++ [part], by simpa using h1, by simp [h2], ?_, h6, ?_⟩
      · intro p hp
        rcases List.mem_append.mp hp with hp | hp
        · exact h4 p hp
        · obtain rfl := List.mem_singleton.mp hp
          exact h5
      · rw [List.dropLast_concat]
        exact getLast_done h7 h3 ((epochDone_iff _ _).mp hd)
    · exact h
  · rename_i latest hmain
    rw [hmain] at hm
    obtain ⟨h1, h2, h3⟩ := hm
    split
    · rename_i hd
      exact inv_main h _ ⟨h2, getLast_done h3 h1 ((epochDone_iff _ _).mp hd)⟩
    · exact h
  · exact h
  · exact h

theorem step_inv (env : Env Hd Tx Rc Wd) (all : List Part) (hall : (all.map (·.1)).Nodup)
    (s : State Hd Tx Rc Wd P) (h : Inv env all s) (ev : Event P) : Inv env all (step env s ev) := by
  cases ev with
  | main => exact stepMain_inv env all hall s h
  | block i =>
    simp only [step]
    split
    · exact h
    · rename_i b hi
      obtain ⟨h1, h2, h3, h4⟩ := stepBlock_facts env s.clock b (h.blocks b (mem_of_getElem? hi))
      refine inv_block h hi h1 _ _ _ _ (by rw [h2]) ?_ ?_ h.report
      · split
        · rename_i ht; rw [if_pos ht] at h4; omega
        · rename_i ht; rw [if_neg ht] at h4; omega
      · rw [results_set_same hi h3]; exact h.recorded
  | content i j census =>
    simp only [step]
    split
    · exact h
    · rename_i b hi
      split
      · exact h
      · rename_i c hj
        have hb := h.blocks b (mem_of_getElem? hi)
        have hc := hb.1 c (mem_of_getElem? hj)
        obtain ⟨h2, h3, h4⟩ := stepContent_inFlight s.clock s.offerPermits census c
        refine inv_block h hi (b' := { b with contents := b.contents.set j (stepContent s.clock s.offerPermits census c).1 })
          ⟨rfl, rfl, fun _ => change_block env _ b hb j c _ hj (stepContent_change _ _ _ _ hc), id⟩
          _ _ _ _ ?_ ?_ ?_ h.report
        · have := sum_set Content.inFlight b.contents j c (stepContent s.clock s.offerPermits census c).1 hj
          have h0 := h.offerPermits
          show _ + (((b.contents.set j _).map Content.inFlight).sum) = _ + ((b.contents.map Content.inFlight).sum)
          split
          · rename_i ht
            have := h3 ht
            rw [if_pos ht] at h2; omega
          · rename_i ht
            rw [if_neg ht] at h2; omega
        · rfl
        · rw [results_set_same hi]
          · exact h.recorded
          · show (b.contents.set j _).flatMap Content.results = b.contents.flatMap Content.results
            rw [List.flatMap_def, List.flatMap_def, map_set_same _ hj h4]
  | reply i j k r =>
    simp only [step]
    split
    · exact h
    · rename_i b hi
      split
      · exact h
      · rename_i c hj
        split
        · exact h
        · rename_i c' peer tr he
          have hb := h.blocks b (mem_of_getElem? hi)
          have hc := hb.1 c (mem_of_getElem? hj)
          obtain ⟨h2, h3⟩ := endOffer_inFlight he
          refine inv_block h hi (b' := { b with contents := b.contents.set j c' })
            ⟨rfl, rfl, fun _ => change_block env _ b hb j c _ hj (endOffer_change hc he), id⟩
            _ _ _ _ ?_ ?_ ?_ ?_
          · have := sum_set Content.inFlight b.contents j c c' hj
            show _ + (((b.contents.set j _).map Content.inFlight).sum) = _ + ((b.contents.map Content.inFlight).sum)
            omega
          · rfl
          · refine ((h.recorded.cons _).trans (List.Perm.symm ?_))
            apply perm_flatMap_set _ _ _ _ _ _ hi
            exact perm_flatMap_set _ _ _ _ _ _ hj h3
          · rw [countReport_cons, h.report]
  | tick d =>
    simp only [step]
    exact ⟨fun b hb => (h.blocks b hb).tick (Nat.le_add_right _ _), h.offerPermits, h.blockPermits, h.recorded, h.report,
      h.parts, h.only, h.main⟩

theorem run_inv (env : Env Hd Tx Rc Wd) (all : List Part) (hall : (all.map (·.1)).Nodup)
    (s : State Hd Tx Rc Wd P) (h : Inv env all s) (es : List (Event P)) : Inv env all (run env s es) := by
  induction es generalizing s with
  | nil => exact h
  | cons e es ih => exact ih _ (step_inv env all hall s h e)

end Verif.E2hsBridge
