import Verif.Props.StreamsSpec

/-! # Lemmas for C90 -/

namespace Verif.Streams
open Verif.Props.StreamsSpec

theorem run_snoc (evs : List Event) (e : Event) : run (evs ++ [e]) = step (run evs) e := by
  simp [run, List.foldl_append]

theorem run_ind {P : List Event → State → Prop} (h0 : P [] init)
    (hs : ∀ evs e s, P evs s → P (evs ++ [e]) (step s e)) (evs : List Event) : P evs (run evs) := by
  have : ∀ (n : Nat) (evs : List Event), evs.length = n → P evs (run evs) := by
    intro n
    induction n with
    | zero => intro evs h; rw [List.length_eq_zero_iff.mp h]; exact h0
    | succ n ih =>
      intro evs h
      have hne : evs ≠ [] := by intro e; simp [e] at h
      have := List.dropLast_concat_getLast hne
      rw [← this, run_snoc]
      exact hs _ _ _ (ih _ (by simp [h]))
  exact this _ evs rfl

theorem started_append (a b : List Event) : started (a ++ b) = started a ++ started b := by
  induction a with
  | nil => rfl
  | cons e a ih => cases e <;> simp [started, ih]

theorem turns_append (i : Nat) : ∀ (n : Nat) (a b : List Event),
    turns i n (a ++ b) = turns i n a + turns i (n + (started a).length) b
  | n, [], b => by simp [turns, started]
  | n, .start _ _ :: a, b => by
    simp only [List.cons_append, turns, started, List.length_cons]
    rw [turns_append i (n + 1) a b]
    congr 2; omega
  | n, .advance j :: a, b => by
    simp only [List.cons_append, turns, started]
    rw [turns_append i n a b]; omega

/-- What is known about one stream, from its phase. -/
def Good (t : Task) : Prop :=
  match t.phase, t.args.dir with
  | .connecting, _ => True
  | .moving, _ => t.fate.connected = true
  | .closing, .outbound => t.fate.connected = true ∧ t.fate.written = some t.args.data.length
  | .closing, .inbound => False
  | .ended .success d, .inbound => t.fate.connected = true ∧ t.fate.read = d ∧ d.isSome
  | .ended .success d, .outbound =>
    t.fate.connected = true ∧ t.fate.written = some t.args.data.length ∧ t.fate.closed = true ∧ d = none
  | .ended .failedConnection d, _ => t.fate.connected = false ∧ d = none
  | .ended .failedDataTx d, .inbound => t.fate.connected = true ∧ t.fate.read = none ∧ d = none
  | .ended .failedDataTx d, .outbound => t.fate.connected = true ∧ t.fate.written ≠ some t.args.data.length ∧ d = none
  | .ended .failedShutdown _, .inbound => False
  | .ended .failedShutdown d, .outbound =>
    t.fate.connected = true ∧ t.fate.written = some t.args.data.length ∧ t.fate.closed = false ∧ d = none

/-- The calls a stream has made, from its phase. -/
def made (t : Task) : List Call :=
  opening t.args :: (match t.args.dir with
  | .inbound =>
    (match t.phase with
    | .connecting => []
    | .ended .failedConnection _ => []
    | _ => [.read])
  | .outbound =>
    (match t.phase with
    | .connecting => []
    | .ended .failedConnection _ => []
    | .moving => [.write t.args.data]
    | .ended .failedDataTx _ => [.write t.args.data]
    | _ => [.write t.args.data, .close]))

theorem good_next {t : Task} (h : Good t) : Good { t with phase := (next t).1 } := by
  rcases t with ⟨⟨dir, side, cid, peer, data⟩, ⟨con, rd, wr, cl⟩, phase⟩
  rcases phase with _ | _ | _ | ⟨o, d⟩
  · cases dir <;> cases con <;> simp_all [Good, next]
  · cases dir
    · cases rd <;> simp_all [Good, next]
    · cases wr with
      | none => simp_all [Good, next]
      | some n =>
        by_cases e : n = data.length
        · subst e; simp_all [Good, next]
        · simp_all [Good, next]
  · cases dir
    · simp_all [Good]
    · cases cl <;> simp_all [Good, next]
  · cases o <;> cases dir <;> simp_all [Good, next]

theorem made_next {t : Task} (h : Good t) : made { t with phase := (next t).1 } = made t ++ (next t).2.toList := by
  rcases t with ⟨⟨dir, side, cid, peer, data⟩, ⟨con, rd, wr, cl⟩, phase⟩
  rcases phase with _ | _ | _ | ⟨o, d⟩
  · cases dir <;> cases con <;> simp_all [made, next]
  · cases dir
    · cases rd <;> simp_all [made, next]
    · cases wr with
      | none => simp_all [made, next]
      | some n =>
        by_cases e : n = data.length
        · subst e; simp_all [made, next]
        · simp_all [made, next]
  · cases dir
    · simp_all [Good]
    · cases cl <;> simp_all [made, next]
  · cases o <;> cases dir <;> simp_all [made, next]

/-- Answers that a stream still needs at most. -/
def left (t : Task) : Nat :=
  match t.phase, t.args.dir with
  | .connecting, .inbound => 2
  | .connecting, .outbound => 3
  | .moving, .inbound => 1
  | .moving, .outbound => 2
  | .closing, _ => 1
  | .ended _ _, _ => 0

theorem left_next (t : Task) : left { t with phase := (next t).1 } + 1 ≤ left t ∨ (left t = 0 ∧ left { t with phase := (next t).1 } = 0) := by
  rcases t with ⟨⟨dir, side, cid, peer, data⟩, ⟨con, rd, wr, cl⟩, phase⟩
  rcases phase with _ | _ | _ | ⟨o, d⟩
  · cases dir <;> cases con <;> simp [left, next]
  · cases dir
    · cases rd <;> simp [left, next]
    · cases wr with
      | none => simp [left, next]
      | some n =>
        by_cases e : n = data.length
        · subst e; simp [left, next]
        · simp [left, next, e]
  · cases cl <;> simp [left, next]
  · simp [left, next]

theorem left_zero {t : Task} (h : left t = 0) : Ended t := by
  rcases t with ⟨⟨dir, side, cid, peer, data⟩, fate, phase⟩
  rcases phase with _ | _ | _ | ⟨o, d⟩
  · cases dir <;> simp [left] at h
  · cases dir <;> simp [left] at h
  · simp [left] at h
  · exact ⟨o, d, rfl⟩

def isActive (d : Dir) (t : Task) : Bool := t.args.dir == d && !decide (Ended t)
def isEnded (d : Dir) (o : Outcome) (t : Task) : Bool := t.args.dir == d && EndedWith o t

theorem countP_set {p : Task → Bool} : ∀ {l : List Task} {i : Nat} {t t' : Task}, l[i]? = some t →
    (l.set i t').countP p + (if p t then 1 else 0) = l.countP p + (if p t' then 1 else 0)
  | [], i, t, t', h => by simp at h
  | x :: l, 0, t, t', h => by
    simp only [List.getElem?_cons_zero, Option.some.injEq] at h
    subst h
    simp only [List.set_cons_zero, List.countP_cons]
    omega
  | x :: l, i + 1, t, t', h => by
    simp only [List.getElem?_cons_succ] at h
    have := countP_set (p := p) (t' := t') h
    simp only [List.set_cons_succ, List.countP_cons]
    omega

structure Inv (evs : List Event) (s : State) : Prop where
  args : s.tasks.map (fun t => (t.args, t.fate)) = started evs
  good : ∀ t ∈ s.tasks, Good t
  active : ∀ d, s.counters.active d = (s.tasks.countP (isActive d) : Nat)
  outcomes : ∀ d o, s.counters.outcomes d o = s.tasks.countP (isEnded d o)
  calls : ∀ i t, s.tasks[i]? = some t → callsOf s i = made t
  silent : ∀ c ∈ s.calls, c.1 < s.tasks.length
  work : ∀ i t, s.tasks[i]? = some t → left t = 0 ∨ left t + turns i 0 evs ≤ 3

theorem turns_zero (i : Nat) : ∀ (n : Nat) (evs : List Event), n + (started evs).length ≤ i → turns i n evs = 0
  | _, [], _ => rfl
  | n, .start _ _ :: evs, h => by
    simp only [started, List.length_cons] at h
    exact turns_zero i (n + 1) evs (by omega)
  | n, .advance j :: evs, h => by
    simp only [started] at h
    simp only [turns]
    rw [if_neg (by omega), turns_zero i n evs h]

theorem Inv.start {evs : List Event} {s : State} (I : Inv evs s) (a : Args) (f : Fate) :
    Inv (evs ++ [.start a f]) (Streams.step s (.start a f)) where
  args := by
    rw [started_append]
    simp only [Streams.step, List.map_append, I.args]
    rfl
  good := by
    intro t ht
    simp only [Streams.step, List.mem_append, List.mem_singleton] at ht
    rcases ht with ht | rfl
    · exact I.good t ht
    · simp [Good]
  active := by
    intro d
    simp only [Streams.step, Counters.inc, List.countP_append, List.countP_cons, List.countP_nil, I.active]
    have hn : decide (Ended ⟨a, f, .connecting⟩) = false := by
      apply decide_eq_false; rintro ⟨_, _, h⟩; cases h
    by_cases e : d = a.dir
    · subst e; simp [isActive, hn]
    · have : (a.dir == d) = false := by simpa using fun h => e h.symm
      simp [isActive, e, this]
  outcomes := by
    intro d o
    simp only [Streams.step, Counters.inc, List.countP_append, List.countP_cons, List.countP_nil, I.outcomes]
    simp [isEnded, EndedWith]
  calls := by
    intro i t h
    simp only [Streams.step] at h
    simp only [callsOf, Streams.step, List.filter_append, List.map_append]
    rw [List.getElem?_append] at h
    split at h
    · next hi =>
      have := I.calls i t h
      unfold callsOf at this
      rw [this]
      have : (s.tasks.length == i) = false := by simp; omega
      simp [this]
    · next hi =>
      have hi' : i = s.tasks.length := by
        rcases Nat.lt_or_ge (i - s.tasks.length) 1 with h1 | h1
        · omega
        · rw [List.getElem?_eq_none (by simpa using h1)] at h; simp at h
      subst hi'
      simp at h
      subst h
      have : s.calls.filter (fun c => c.1 == s.tasks.length) = [] := by
        rw [List.filter_eq_nil_iff]
        intro c hc
        have := I.silent c hc
        simp; omega
      rw [this]
      cases hd : a.dir <;> simp [made, hd]
  silent := by
    intro c hc
    simp only [Streams.step, List.mem_append, List.mem_singleton, List.length_append, List.length_singleton] at hc ⊢
    rcases hc with hc | rfl
    · have := I.silent c hc; omega
    · simp
  work := by
    intro i t h
    have hlen : (started evs).length = s.tasks.length := by rw [← I.args, List.length_map]
    rw [turns_append, show turns i (0 + (started evs).length) [Event.start a f] = 0 from rfl]
    simp only [Streams.step] at h
    rw [List.getElem?_append] at h
    split at h
    · exact I.work i t h
    · next hi =>
      right
      rw [turns_zero i 0 evs (by omega)]
      have : left t ≤ 3 := by
        unfold left
        split <;> omega
      omega

theorem set_get {l : List Task} {i j : Nat} {t' u : Task} (h : (l.set i t')[j]? = some u) :
    (j = i ∧ u = t') ∨ (j ≠ i ∧ l[j]? = some u) := by
  rw [List.getElem?_set] at h
  split at h
  · next e =>
    split at h
    · simp only [Option.some.injEq] at h
      exact .inl ⟨e.symm, h.symm⟩
    · simp at h
  · next e => exact .inr ⟨fun x => e x.symm, h⟩

theorem Inv.advance {evs : List Event} {s : State} (I : Inv evs s) (i : Nat) :
    Inv (evs ++ [.advance i]) (Streams.step s (.advance i)) := by
  have hlen : (started evs).length = s.tasks.length := by rw [← I.args, List.length_map]
  have hturn : ∀ j, turns j 0 (evs ++ [.advance i]) = turns j 0 evs + (if i = j ∧ j < s.tasks.length then 1 else 0) := by
    intro j
    rw [turns_append]
    simp [turns, hlen]
  have hargs : started (evs ++ [.advance i]) = started evs := by rw [started_append]; simp [started]
  cases hi : s.tasks[i]? with
  | none =>
    have hs : Streams.step s (.advance i) = s := by simp [Streams.step, hi]
    rw [hs]
    have hge : s.tasks.length ≤ i := List.getElem?_eq_none_iff.mp hi
    exact { args := by rw [hargs]; exact I.args
            good := I.good
            active := I.active
            outcomes := I.outcomes
            calls := I.calls
            silent := I.silent
            work := by
              intro j t h
              rw [hturn, if_neg (by omega)]
              exact I.work j t h }
  | some t =>
    have hlt : i < s.tasks.length := by
      rcases Nat.lt_or_ge i s.tasks.length with h | h
      · exact h
      · rw [List.getElem?_eq_none h] at hi; simp at hi
    have hmem : t ∈ s.tasks := List.mem_of_getElem? hi
    have hs : Streams.step s (.advance i) = s.advance i t := by simp [Streams.step, hi]
    rw [hs]
    have htasks : (s.advance i t).tasks = s.tasks.set i { t with phase := (next t).1 } := rfl
    have hcalls : (s.advance i t).calls = s.calls ++ ((next t).2.map fun c => (i, c)).toList := rfl
    -- the counters
    have hcase : (Ended t ∧ (next t).1 = t.phase ∧ (s.advance i t).counters = s.counters) ∨
        (¬ Ended t ∧ ((∃ o d, (next t).1 = .ended o d ∧ (s.advance i t).counters = s.counters.report t.args.dir o) ∨
          (¬ Ended { t with phase := (next t).1 } ∧ (s.advance i t).counters = s.counters))) := by
      rcases t with ⟨args, fate, phase⟩
      cases phase with
      | ended o d => exact .inl ⟨⟨o, d, rfl⟩, rfl, rfl⟩
      | connecting =>
        refine .inr ⟨(by rintro ⟨_, _, h⟩; cases h), ?_⟩
        cases hp : (next ⟨args, fate, .connecting⟩).1 with
        | ended o d => exact .inl ⟨o, d, rfl, by simp [State.advance, hp]⟩
        | connecting => exact .inr ⟨(by rintro ⟨_, _, h⟩; cases h), by simp [State.advance, hp]⟩
        | moving => exact .inr ⟨(by rintro ⟨_, _, h⟩; cases h), by simp [State.advance, hp]⟩
        | closing => exact .inr ⟨(by rintro ⟨_, _, h⟩; cases h), by simp [State.advance, hp]⟩
      | moving =>
        refine .inr ⟨(by rintro ⟨_, _, h⟩; cases h), ?_⟩
        cases hp : (next ⟨args, fate, .moving⟩).1 with
        | ended o d => exact .inl ⟨o, d, rfl, by simp [State.advance, hp]⟩
        | connecting => exact .inr ⟨(by rintro ⟨_, _, h⟩; cases h), by simp [State.advance, hp]⟩
        | moving => exact .inr ⟨(by rintro ⟨_, _, h⟩; cases h), by simp [State.advance, hp]⟩
        | closing => exact .inr ⟨(by rintro ⟨_, _, h⟩; cases h), by simp [State.advance, hp]⟩
      | closing =>
        refine .inr ⟨(by rintro ⟨_, _, h⟩; cases h), ?_⟩
        cases hp : (next ⟨args, fate, .closing⟩).1 with
        | ended o d => exact .inl ⟨o, d, rfl, by simp [State.advance, hp]⟩
        | connecting => exact .inr ⟨(by rintro ⟨_, _, h⟩; cases h), by simp [State.advance, hp]⟩
        | moving => exact .inr ⟨(by rintro ⟨_, _, h⟩; cases h), by simp [State.advance, hp]⟩
        | closing => exact .inr ⟨(by rintro ⟨_, _, h⟩; cases h), by simp [State.advance, hp]⟩
    have hnotEnded : ∀ (u : Task) (o : Outcome), ¬ Ended u → EndedWith o u = false := by
      intro u o h
      unfold EndedWith
      split
      · next o' d e => exact absurd ⟨o', d, e⟩ h
      · rfl
    refine { args := ?_, good := ?_, active := ?_, outcomes := ?_, calls := ?_, silent := ?_, work := ?_ }
    · rw [hargs, htasks, List.map_set, ← I.args]
      apply List.ext_getElem?
      intro j
      rw [List.getElem?_set]
      split
      · next e => subst e; simp [hi]; exact hlt
      · rfl
    · intro u hu
      rw [htasks] at hu
      rcases List.mem_or_eq_of_mem_set hu with h | rfl
      · exact I.good u h
      · exact good_next (I.good t hmem)
    · intro d
      have hc := countP_set (p := isActive d) (t' := { t with phase := (next t).1 }) hi
      rw [htasks]
      rcases hcase with ⟨he, hp, hk⟩ | ⟨he, ⟨o, x, hp, hk⟩ | ⟨hne, hk⟩⟩
      · have e : ({ t with phase := (next t).1 } : Task) = t := by rw [hp]
        rw [e] at hc ⊢
        rw [hk, I.active]
        congr 1; omega
      · have h1 : isActive d t = (t.args.dir == d) := by simp [isActive, he]
        have h2 : isActive d { t with phase := (next t).1 } = false := by
          have : Ended { t with phase := (next t).1 } := ⟨o, x, hp⟩
          simp [isActive, this]
        rw [h1, h2] at hc
        rw [hk]
        simp only [Counters.report, Counters.dec, I.active]
        by_cases e : d = t.args.dir
        · subst e; simp at hc ⊢; omega
        · have : (t.args.dir == d) = false := by simpa using fun h => e h.symm
          rw [this] at hc
          simp [e] at hc ⊢; omega
      · have h1 : isActive d t = (t.args.dir == d) := by simp [isActive, he]
        have h2 : isActive d { t with phase := (next t).1 } = (t.args.dir == d) := by simp [isActive, hne]
        rw [h1, h2] at hc
        rw [hk, I.active]
        congr 1; omega
    · intro d o'
      have hc := countP_set (p := isEnded d o') (t' := { t with phase := (next t).1 }) hi
      rw [htasks]
      rcases hcase with ⟨he, hp, hk⟩ | ⟨he, ⟨o, x, hp, hk⟩ | ⟨hne, hk⟩⟩
      · have e : ({ t with phase := (next t).1 } : Task) = t := by rw [hp]
        rw [e] at hc ⊢
        rw [hk, I.outcomes]
        omega
      · have h1 : isEnded d o' t = false := by simp [isEnded, hnotEnded t o' he]
        have h2 : isEnded d o' { t with phase := (next t).1 } = (t.args.dir == d && o == o') := by
          simp [isEnded, EndedWith, hp]
        rw [h1, h2] at hc
        rw [hk]
        simp only [Counters.report, Counters.dec, I.outcomes]
        by_cases e : d = t.args.dir ∧ o' = o
        · obtain ⟨rfl, rfl⟩ := e; simp at hc ⊢; omega
        · rw [if_neg e]
          have : (t.args.dir == d && o == o') = false := by
            cases hx : (t.args.dir == d && o == o') with
            | false => rfl
            | true =>
              simp only [Bool.and_eq_true, beq_iff_eq] at hx
              exact absurd ⟨hx.1.symm, hx.2.symm⟩ e
          rw [this] at hc
          simp at hc; omega
      · have h1 : isEnded d o' t = false := by simp [isEnded, hnotEnded t o' he]
        have h2 : isEnded d o' { t with phase := (next t).1 } = false := by simp [isEnded, hnotEnded _ o' hne]
        rw [h1, h2] at hc
        rw [hk, I.outcomes]
        omega
    · intro j u hu
      rw [htasks] at hu
      unfold callsOf
      rw [hcalls, List.filter_append, List.map_append]
      rcases set_get hu with ⟨rfl, rfl⟩ | ⟨hne, hu⟩
      · have := I.calls j t hi
        unfold callsOf at this
        rw [this, made_next (I.good t hmem)]
        congr 1
        cases (next t).2 <;> simp
      · have := I.calls j u hu
        unfold callsOf at this
        rw [this]
        have hij : (i == j) = false := by simpa using fun h => hne h.symm
        cases (next t).2 <;> simp [hij]
    · intro c hc
      rw [hcalls] at hc
      rw [htasks, List.length_set]
      rcases List.mem_append.mp hc with hc | hc
      · exact I.silent c hc
      · cases hn : (next t).2 with
        | none => rw [hn] at hc; simp at hc
        | some x => rw [hn] at hc; simp at hc; subst hc; exact hlt
    · intro j u hu
      rw [htasks] at hu
      rw [hturn]
      rcases set_get hu with ⟨rfl, rfl⟩ | ⟨hne, hu⟩
      · rw [if_pos ⟨rfl, hlt⟩]
        rcases left_next t with h | h
        · rcases I.work j t hi with h' | h'
          · omega
          · right; omega
        · exact .inl h.2
      · rw [if_neg (fun h => hne h.1.symm)]
        exact I.work j u hu

theorem inv (evs : List Event) : Inv evs (run evs) := by
  refine run_ind (P := Inv) ?_ ?_ evs
  · exact { args := rfl
            good := by simp [init]
            active := by simp [init, Counters.zero]
            outcomes := by simp [init, Counters.zero]
            calls := by simp [init]
            silent := by simp [init]
            work := by simp [init] }
  · intro evs e s I
    cases e with
    | start a f => exact I.start a f
    | advance i => exact I.advance i

end Verif.Streams
