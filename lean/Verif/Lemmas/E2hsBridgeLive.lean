import Verif.Lemmas.E2hsBridgeRun

/-! # Lemmas for the progress of the E2HS bridge -/

namespace Verif.E2hsBridge
open Verif.HeaderValidator (Verdict)
open Verif.E2store (Res Entry)
open Verif.Archive (e2hsFormat readTuples)
open Verif.Census (OfferTrace)
open Verif.Props.FileBridge

variable {Hd Tx Rc Wd P : Type}

/-! ## Some task can move -/

theorem sum_pos {α : Type} (f : α → Nat) (l : List α) (h : 0 < (l.map f).sum) : ∃ (i : Nat) (a : α), l[i]? = some a ∧ 0 < f a := by
  induction l with
  | nil => simp at h
  | cons x l ih =>
    by_cases hx : 0 < f x
    · exact ⟨0, x, rfl, hx⟩
    · simp only [List.map_cons, List.sum_cons] at h
      obtain ⟨i, a, h1, h2⟩ := ih (by omega)
      exact ⟨i + 1, a, by simpa using h1, h2⟩

/-- After some time an event changes the state. -/
def Moves (env : Env Hd Tx Rc Wd) (s : State Hd Tx Rc Wd P) : Prop :=
  ∃ d ev, IsStep ev ∧ step env (step env s (.tick d)) ev ≠ step env s (.tick d)

theorem pending_moves (env : Env Hd Tx Rc Wd) (s : State Hd Tx Rc Wd P) {i j k : Nat} {b : BlockTask Hd Tx Rc Wd P}
    {c : Content P} {o : Offer P} (hi : s.blocks[i]? = some b) (hj : b.contents[j]? = some c)
    (hk : c.offers[k]? = some o) (ho : o.result = none) : Moves env s := by
  refine ⟨0, .reply i j k .timeout, trivial, ?_⟩
  intro h
  have h' := congrArg State.offerPermits h
  obtain ⟨peer, sent, result⟩ := o
  simp only at ho
  subst ho
  simp only [step, hi, hj, endOffer, hk] at h'
  omega

theorem inFlight_pending {c : Content P} (h : 0 < c.inFlight) : ∃ (k : Nat) (o : Offer P), c.offers[k]? = some o ∧ o.result = none := by
  unfold Content.inFlight at h
  obtain ⟨o, ho⟩ := List.exists_mem_of_length_pos h
  rw [List.mem_filter] at ho
  obtain ⟨k, hk⟩ := List.getElem?_of_mem ho.1
  exact ⟨k, o, hk, by simpa using ho.2⟩

theorem content_moves (env : Env Hd Tx Rc Wd) (s : State Hd Tx Rc Wd P) (hl : 0 < env.offerLimit)
    (hp : s.offerPermits + (s.blocks.map BlockTask.inFlight).sum = env.offerLimit) {i j : Nat}
    {b : BlockTask Hd Tx Rc Wd P} {c : Content P} (hi : s.blocks[i]? = some b) (hj : b.contents[j]? = some c)
    (hd : c.done ≠ true) : Moves env s := by
  have hil : i < s.blocks.length := (List.getElem?_eq_some_iff.mp hi).1
  have hjl : j < b.contents.length := (List.getElem?_eq_some_iff.mp hj).1
  cases ha : c.asked with
  | none =>
    refine ⟨0, .content i j none, trivial, ?_⟩
    intro h
    have h' := congrArg (fun s : State Hd Tx Rc Wd P => s.blocks[i]?) h
    simp only [step, hi, hj, stepContent, ha, List.getElem?_set_self hil, Option.some.injEq] at h'
    have h'' := congrArg (fun b : BlockTask Hd Tx Rc Wd P => b.contents[j]?) h'
    simp only [List.getElem?_set_self hjl, hj, Option.some.injEq] at h''
    have := congrArg Content.asked h''
    rw [ha] at this
    cases this
  | some a =>
    cases hq : c.queue with
    | nil =>
      have : ∃ o ∈ c.offers, o.result = none := by
        apply Classical.byContradiction
        intro hn
        apply hd
        rw [done_iff]
        refine ⟨by simp [ha], hq, ?_⟩
        intro o ho
        cases hr : o.result with
        | none => exact absurd ⟨o, ho, hr⟩ hn
        | some _ => rfl
      obtain ⟨o, ho, hr⟩ := this
      obtain ⟨k, hk⟩ := List.getElem?_of_mem ho
      exact pending_moves env s hi hj hk hr
    | cons p queue =>
      by_cases hz : s.offerPermits = 0
      · obtain ⟨i', b', hi', hb'⟩ := sum_pos BlockTask.inFlight s.blocks (by omega)
        obtain ⟨j', c', hj', hc'⟩ := sum_pos Content.inFlight b'.contents hb'
        obtain ⟨k', o', hk', ho'⟩ := inFlight_pending hc'
        exact pending_moves env s hi' hj' hk' ho'
      · refine ⟨0, .content i j none, trivial, ?_⟩
        intro h
        have h' := congrArg State.offerPermits h
        simp only [step, hi, hj, stepContent, ha, hq, if_neg hz] at h'
        simp at h'
        omega

theorem all_or_not (l : List (Content P)) : l.all Content.done = true ∨ ∃ (j : Nat) (c : Content P), l[j]? = some c ∧ c.done ≠ true := by
  by_cases h : l.all Content.done = true
  · exact .inl h
  · right
    rw [List.all_eq_true] at h
    have : ∃ c ∈ l, c.done ≠ true := by
      apply Classical.byContradiction
      intro hn
      exact h fun c hc => Classical.byContradiction fun hd => hn ⟨c, hc, hd⟩
    obtain ⟨c, hc, hd⟩ := this
    obtain ⟨j, hj⟩ := List.getElem?_of_mem hc
    exact ⟨j, c, hj, hd⟩

theorem block_moves (env : Env Hd Tx Rc Wd) (s : State Hd Tx Rc Wd P) (hl : 0 < env.offerLimit)
    (hp : s.offerPermits + (s.blocks.map BlockTask.inFlight).sum = env.offerLimit) {i : Nat}
    {b : BlockTask Hd Tx Rc Wd P} (hi : s.blocks[i]? = some b) (hd : b.phase ≠ .done) : Moves env s := by
  have hil : i < s.blocks.length := (List.getElem?_eq_some_iff.mp hi).1
  have key : ∀ d, (stepBlock env (s.clock + d) b).1.phase ≠ b.phase → Moves env s := by
    intro d hne
    refine ⟨d, .block i, trivial, ?_⟩
    intro h
    have h' := congrArg (fun s : State Hd Tx Rc Wd P => s.blocks[i]?) h
    simp only [step, hi, List.getElem?_set_self hil, Option.some.injEq] at h'
    exact hne (congrArg BlockTask.phase h')
  cases hph : b.phase with
  | done => exact absurd hph hd
  | start => exact key 0 (by simp [stepBlock, hph])
  | header =>
    rcases all_or_not b.contents with ha | ⟨j, c, hj, hc⟩
    · exact key 0 (by simp [stepBlock, hph, ha])
    · exact content_moves env s hl hp hi hj hc
  | delay since =>
    refine key (since + 2000) ?_
    have : since + saturationDelay ≤ s.clock + (since + 2000) := by unfold saturationDelay; omega
    simp [stepBlock, hph, this]
  | rest =>
    rcases all_or_not b.contents with ha | ⟨j, c, hj, hc⟩
    · exact key 0 (by simp [stepBlock, hph, ha])
    · exact content_moves env s hl hp hi hj hc

theorem never_stuck (env : Env Hd Tx Rc Wd) (all : List Part) (s : State Hd Tx Rc Wd P) (h : Inv env all s)
    (hl : 0 < env.offerLimit) (hm : s.main ≠ .finished) (hm' : s.main ≠ .panicked) : Moves env s := by
  have key : (stepMain env s).main ≠ s.main → Moves env s := by
    intro hne
    refine ⟨0, .main, trivial, ?_⟩
    intro he
    have : step env s (.tick 0) = s := rfl
    rw [this] at he
    exact hne (congrArg State.main he)
  have wait : ∀ e, epochDone s.blocks e ≠ true → Moves env s := by
    intro e he
    have : ∃ b ∈ s.blocks, b.phase ≠ .done := by
      apply Classical.byContradiction
      intro hn
      exact he ((epochDone_iff _ _).mpr fun b hb _ => Classical.byContradiction fun hd => hn ⟨b, hb, hd⟩)
    obtain ⟨b, hb, hd⟩ := this
    obtain ⟨i, hi⟩ := List.getElem?_of_mem hb
    exact block_moves env s hl h.offerPermits hi hd
  cases hmain : s.main with
  | finished => exact absurd hmain hm
  | panicked => exact absurd hmain hm'
  | loop todo latest =>
    apply key
    unfold stepMain
    rw [hmain]
    cases todo with
    | nil => cases latest <;> simp
    | cons part todo =>
      simp only
      split
      · simp
      · split <;> simp
  | reading part entries n todo latest =>
    cases n with
    | zero =>
      apply key
      unfold stepMain
      rw [hmain]
      cases latest <;> simp
    | succ n =>
      by_cases hne : (stepMain env s).main ≠ s.main
      · exact key hne
      · have hz : s.blockPermits = 0 := by
          apply Classical.byContradiction
          intro hz
          apply hne
          unfold stepMain
          rw [hmain]
          simp only
          split
          · simp
          · split
            · simp
            · split
              · simp
              · simp
              · simp
        have hb := h.blockPermits
        obtain ⟨i, b, hi, hpos⟩ := sum_pos BlockTask.holds s.blocks (by omega)
        refine block_moves env s hl h.offerPermits hi ?_
        intro hd
        simp [BlockTask.holds, hd] at hpos
  | waitPrevious a b todo =>
    by_cases hd : epochDone s.blocks a = true
    · apply key
      unfold stepMain
      rw [hmain]
      simp [hd]
    · exact wait a hd
  | waitLast a =>
    by_cases hd : epochDone s.blocks a = true
    · apply key
      unfold stepMain
      rw [hmain]
      simp [hd]
    · exact wait a hd

/-! ## There are finitely many steps -/

/-- Blocks in the file of an epoch, as its index says. -/
def fileCount (env : Env Hd Tx Rc Wd) (e : Nat) : Nat :=
  match env.download e with
  | none => 0
  | some bytes => match openFile bytes with
    | .ok (_, n) => n
    | _ => 0

def todoRank (env : Env Hd Tx Rc Wd) (todo : List Part) : Nat := (todo.map fun p => 9 * fileCount env p.1 + 4).sum + 2

def mainRank (env : Env Hd Tx Rc Wd) : Main → Nat
  | .loop todo _ => todoRank env todo
  | .reading _ _ n todo _ => todoRank env todo + 9 * n + 3
  | .waitPrevious _ _ todo => todoRank env todo + 1
  | .waitLast _ => 1
  | .finished => 0
  | .panicked => 0

def phaseRank : Phase → Nat
  | .start => 8
  | .header => 6
  | .delay _ => 4
  | .rest => 1
  | .done => 0

def Content.unasked (c : Content P) : Nat := if c.asked.isNone then 1 else 0

def blockRank (b : BlockTask Hd Tx Rc Wd P) : Nat := phaseRank b.phase + (b.contents.map Content.unasked).sum

def Content.rank (c : Content P) : Nat := 2 * c.queue.length + c.inFlight

def rank (env : Env Hd Tx Rc Wd) (s : State Hd Tx Rc Wd P) : Nat × Nat :=
  (mainRank env s.main + (s.blocks.map blockRank).sum,
   (s.blocks.map fun b => (b.contents.map Content.rank).sum).sum)

/-- Lexicographic order. -/
def Less (a b : Nat × Nat) : Prop := a.1 < b.1 ∨ (a.1 = b.1 ∧ a.2 < b.2)

theorem less_wf : WellFounded Less := by
  refine ⟨fun a => ?_⟩
  obtain ⟨x, y⟩ := a
  induction x using Nat.strongRecOn generalizing y with
  | _ x ihx =>
    induction y using Nat.strongRecOn with
    | _ y ihy =>
      refine ⟨_, fun b hb => ?_⟩
      obtain ⟨u, v⟩ := b
      rcases hb with h | ⟨h1, h2⟩
      · exact ihx u h v
      · simp only at h1 h2
        subst h1
        exact ihy v h2

theorem todoRank_cons (env : Env Hd Tx Rc Wd) (p : Part) (todo : List Part) :
    todoRank env (p :: todo) = todoRank env todo + 9 * fileCount env p.1 + 4 := by
  simp only [todoRank, List.map_cons, List.sum_cons]; omega

theorem stepMain_rank (env : Env Hd Tx Rc Wd) (s : State Hd Tx Rc Wd P) :
    stepMain env s = s ∨ (rank env (stepMain env s)).1 < (rank env s).1 := by
  have hpanic : ∀ m, 0 < mainRank env m → s.main = m →
      (rank env ({ s with main := .panicked } : State Hd Tx Rc Wd P)).1 < (rank env s).1 := by
    intro m hm he
    simp only [rank, he, mainRank] at hm ⊢
    omega
  unfold stepMain
  split
  · rename_i hm
    right; simp only [rank, hm, mainRank, todoRank]; simp
  · rename_i hm
    right; simp only [rank, hm, mainRank, todoRank]; simp
  · rename_i part todo latest hm
    right
    split
    · exact hpanic _ (by simp [mainRank, todoRank]) hm
    · rename_i bytes hb
      split
      · rename_i entries count ho
        have : fileCount env part.1 = count := by simp [fileCount, hb, ho]
        simp only [rank, hm, mainRank, todoRank_cons, this]; omega
      · exact hpanic _ (by simp [mainRank, todoRank]) hm
  · rename_i hm
    right; simp only [rank, hm, mainRank]; omega
  · rename_i hm
    right; simp only [rank, hm, mainRank]; omega
  · rename_i part entries n todo latest hm
    have hnext : ∀ es, (rank env ({ s with main := Main.reading part es n todo latest } : State Hd Tx Rc Wd P)).1 < (rank env s).1 := by
      intro es; simp only [rank, hm, mainRank]; omega
    split
    · right; exact hpanic _ (by simp [mainRank, todoRank]) hm
    · dsimp only
      split
      · right; exact hnext _
      · split
        · right; exact hpanic _ (by simp [mainRank, todoRank]) hm
        · right; exact hnext _
        · split
          · left; rfl
          · right
            simp only [rank, hm, mainRank, List.map_append, List.sum_append, List.map_cons, List.map_nil, List.sum_cons,
              List.sum_nil, newBlock, blockRank, phaseRank]
            omega
  · rename_i hm
    split
    · right; simp only [rank, hm, mainRank]; omega
    · left; rfl
  · rename_i hm
    split
    · right; simp only [rank, hm, mainRank]; omega
    · left; rfl
  · left; rfl
  · left; rfl

theorem stepBlock_rank (env : Env Hd Tx Rc Wd) (clock : Nat) (b : BlockTask Hd Tx Rc Wd P) :
    stepBlock env clock b = (b, false) ∨ blockRank (stepBlock env clock b).1 < blockRank b := by
  unfold stepBlock
  split
  · rename_i hp
    right
    simp [blockRank, hp, phaseRank, headerByHash, Content.start, Content.unasked]; omega
  · rename_i hp
    split
    · right
      simp [blockRank, hp, phaseRank, headerByNumber, Content.start, Content.unasked]
      omega
    · left; rfl
  · rename_i hp
    split
    · right
      simp [blockRank, hp, phaseRank, blockBody, blockReceipts, Content.start, Content.unasked]
      omega
    · left; rfl
  · rename_i hp
    split
    · right
      simp [blockRank, hp, phaseRank]
    · left; rfl
  · left; rfl

theorem stepContent_rank (clock permits : Nat) (census : Option (List P)) (c : Content P) :
    stepContent clock permits census c = (c, false) ∨
    (stepContent clock permits census c).1.unasked < c.unasked ∨
    ((stepContent clock permits census c).1.unasked = c.unasked ∧ (stepContent clock permits census c).1.rank < c.rank) := by
  unfold stepContent
  split
  · rename_i ha
    right; left
    simp [Content.unasked, ha]
  · rename_i a ha
    split
    · left; rfl
    · rename_i p queue hq
      split
      · left; rfl
      · right; right
        refine ⟨rfl, ?_⟩
        simp [Content.rank, Content.inFlight, hq]
        omega

/-- An event that is not time passing changes nothing, or leaves fewer steps. -/
theorem step_rank (env : Env Hd Tx Rc Wd) (s : State Hd Tx Rc Wd P) (ev : Event P) (hs : IsStep ev) :
    step env s ev = s ∨ Less (rank env (step env s ev)) (rank env s) := by
  cases ev with
  | tick d => cases hs
  | main =>
    rcases stepMain_rank env s with h | h
    · exact .inl h
    · exact .inr (.inl h)
  | block i =>
    simp only [step]
    split
    · exact .inl rfl
    · rename_i b hi
      rcases stepBlock_rank env s.clock b with h | h
      · left
        simp [h, set_self hi]
      · right; left
        have := sum_set blockRank s.blocks i b (stepBlock env s.clock b).1 hi
        simp only [rank]
        omega
  | content i j census =>
    simp only [step]
    split
    · exact .inl rfl
    · rename_i b hi
      split
      · exact .inl rfl
      · rename_i c hj
        have h1 := sum_set blockRank s.blocks i b
          { b with contents := b.contents.set j (stepContent s.clock s.offerPermits census c).1 } hi
        have h2 := sum_set Content.unasked b.contents j c (stepContent s.clock s.offerPermits census c).1 hj
        have h3 := sum_set (fun b : BlockTask Hd Tx Rc Wd P => (b.contents.map Content.rank).sum) s.blocks i b
          { b with contents := b.contents.set j (stepContent s.clock s.offerPermits census c).1 } hi
        have h4 := sum_set Content.rank b.contents j c (stepContent s.clock s.offerPermits census c).1 hj
        rcases stepContent_rank s.clock s.offerPermits census c with h | h | ⟨h, h'⟩
        · left
          simp [h, set_self hi, set_self hj]
        · right; left
          simp only [blockRank] at h1
          dsimp only at h3
          simp only [rank]
          omega
        · right; right
          simp only [blockRank] at h1
          dsimp only at h3
          simp only [rank]
          omega
  | reply i j k r =>
    simp only [step]
    split
    · exact .inl rfl
    · rename_i b hi
      split
      · exact .inl rfl
      · rename_i c hj
        split
        · exact .inl rfl
        · rename_i c' peer tr he
          right; right
          obtain ⟨-, -, -, -, -, ha, hq, -, -⟩ := endOffer_some he
          obtain ⟨hf, -⟩ := endOffer_inFlight he
          have hu : c'.unasked = c.unasked := by simp [Content.unasked, ha]
          have hr : c'.rank + 1 = c.rank := by simp only [Content.rank, hq]; omega
          have h1 := sum_set blockRank s.blocks i b { b with contents := b.contents.set j c' } hi
          have h2 := sum_set Content.unasked b.contents j c c' hj
          have h3 := sum_set (fun b : BlockTask Hd Tx Rc Wd P => (b.contents.map Content.rank).sum) s.blocks i b
            { b with contents := b.contents.set j c' } hi
          have h4 := sum_set Content.rank b.contents j c c' hj
          simp only [blockRank] at h1
          dsimp only at h3
          simp only [rank]
          omega

theorem tick_rank (env : Env Hd Tx Rc Wd) (s : State Hd Tx Rc Wd P) (d : Nat) :
    rank env (step env s (.tick d)) = rank env s := rfl

/-- In an endless execution, from some time on nothing happens except that time passes. -/
theorem settles (env : Env Hd Tx Rc Wd) (f : Nat → State Hd Tx Rc Wd P) (ev : Nat → Event P)
    (hf : ∀ n, f (n + 1) = step env (f n) (ev n)) :
    ∃ n, ∀ m, n ≤ m → IsStep (ev m) → f (m + 1) = f m := by
  have hmono : ∀ n d, rank env (f (n + d)) = rank env (f n) ∨ Less (rank env (f (n + d))) (rank env (f n)) := by
    intro n d
    induction d with
    | zero => exact .inl rfl
    | succ d ih =>
      have hstep : rank env (f (n + d + 1)) = rank env (f (n + d)) ∨ Less (rank env (f (n + d + 1))) (rank env (f (n + d))) := by
        rw [hf]
        cases he : ev (n + d) with
        | tick x => exact .inl (tick_rank env _ x)
        | _ =>
          rcases step_rank env (f (n + d)) (ev (n + d)) (by rw [he]; trivial) with h | h
          · rw [he] at h; rw [h]; exact .inl rfl
          · rw [he] at h; exact .inr h
      rw [show n + (d + 1) = n + d + 1 by omega]
      rcases hstep with h | h <;> rcases ih with h' | h'
      · rw [h, h']; exact .inl rfl
      · rw [h]; exact .inr h'
      · rw [h'] at h; exact .inr h
      · right
        unfold Less at *
        omega
  have key : ∀ r n, rank env (f n) = r → ∃ n, ∀ m, n ≤ m → IsStep (ev m) → f (m + 1) = f m := by
    intro r
    induction r using less_wf.induction with
    | _ r ih =>
      intro n hr
      by_cases h : ∀ m, n ≤ m → IsStep (ev m) → f (m + 1) = f m
      · exact ⟨n, h⟩
      · have : ∃ m, n ≤ m ∧ IsStep (ev m) ∧ f (m + 1) ≠ f m := by
          apply Classical.byContradiction
          intro hn
          apply h
          intro m h1 h2
          exact Classical.byContradiction fun h3 => hn ⟨m, h1, h2, h3⟩
        obtain ⟨m, h1, h2, h3⟩ := this
        have h4 := hmono n (m - n)
        rw [show n + (m - n) = m by omega] at h4
        have h5 := step_rank env (f m) (ev m) h2
        rw [← hf] at h5
        rcases h5 with h5 | h5
        · exact absurd h5 h3
        · refine ih _ ?_ (m + 1) rfl
          rw [← hr]
          rcases h4 with h4 | h4
          · rw [h4] at h5; exact h5
          · unfold Less at *; omega
  exact key _ 0 rfl

end Verif.E2hsBridge
