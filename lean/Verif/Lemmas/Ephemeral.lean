import Verif.Props.EphemeralSpec

/-! # Lemmas about the ephemeral history bridge -/

namespace Verif.Ephemeral
open Verif.Props
variable {R : Type}

/-! ## Bundles are chains -/

theorem nextParentRoot_snoc (head : Id) (bundle : List (Block × R)) (b : Block) (rc : R) :
    nextParentRoot head (bundle ++ [(b, rc)]) = b.parent := by
  simp [nextParentRoot]

theorem appendNext_ok {u : Rules} {s s' : State R} {head : Id} {bundle bundle' : List (Block × R)}
    (h : appendNext u s head bundle = .ok s' bundle') :
    ∃ b rc l, lookup s.blocks (nextParentRoot head bundle) = some b ∧ lruGet s.receipts b.number = some (rc, l) ∧
      nextParentRoot head bundle = u.root b ∧ u.builds b = true ∧ s' = { s with receipts := l } ∧
      bundle' = bundle ++ [(b, rc)] := by
  unfold appendNext at h
  cases hb : lookup s.blocks (nextParentRoot head bundle) with
  | none => rw [hb] at h; cases h
  | some b =>
    rw [hb] at h
    cases hr : lruGet s.receipts b.number with
    | none => simp only [hr] at h; cases h
    | some x =>
      obtain ⟨rc, l⟩ := x
      simp only [hr] at h
      by_cases h1 : nextParentRoot head bundle = u.root b
      · rw [if_pos h1] at h
        by_cases h2 : u.builds b = true
        · rw [if_pos h2] at h
          injection h with h3 h4
          exact ⟨b, rc, l, rfl, hr, h1, h2, h3.symm, h4.symm⟩
        · rw [if_neg h2] at h; cases h
      · rw [if_neg h1] at h; cases h

theorem fill_chain {u : Rules} {head : Id} : ∀ (n : Nat) {s s' : State R} {bundle bundle' : List (Block × R)},
    fill u head n s bundle = .ok s' bundle' →
    ∃ more, bundle' = bundle ++ more ∧ more.length = n ∧ ChainFrom u (nextParentRoot head bundle) (more.map (·.1)) := by
  intro n
  induction n with
  | zero =>
    intro s s' bundle bundle' h
    unfold fill at h
    injection h with h1 h2
    exact ⟨[], by rw [← h2]; simp, rfl, .nil _⟩
  | succ n ih =>
    intro s s' bundle bundle' h
    unfold fill at h
    cases ha : appendNext u s head bundle with
    | error s1 => rw [ha] at h; cases h
    | panic => rw [ha] at h; cases h
    | ok s1 bundle1 =>
      rw [ha] at h
      obtain ⟨b, rc, l, _, _, hroot, _, _, hb⟩ := appendNext_ok ha
      subst hb
      obtain ⟨more, h1, h2, h3⟩ := ih h
      refine ⟨(b, rc) :: more, by rw [h1]; simp, by simp [h2], ?_⟩
      rw [nextParentRoot_snoc] at h3
      rw [hroot]
      exact .cons b _ h3

theorem step_bundle {u : Rules} {s s' : State R} {e : Event R} {out : List (Effect R)} (h : step u s e = some (s', out))
    {head : Id} {bs : List (Block × R)} (hm : Effect.bundle head bs ∈ out) :
    e = .update head ∧ ∃ s1, fill u head totalBufferCount s [] = .ok s1 bs := by
  cases e with
  | head r api =>
    unfold step at h
    cases h
    cases hm
  | update hd =>
    change processUpdate u s hd = some (s', out) at h
    unfold processUpdate at h
    split at h
    · cases h; cases hm
    · cases hf : fill u hd totalBufferCount s [] with
      | ok s1 b1 =>
        rw [hf] at h
        cases h
        simp only [List.mem_singleton, Effect.bundle.injEq] at hm
        obtain ⟨rfl, rfl⟩ := hm
        exact ⟨rfl, _, hf⟩
      | error s1 => rw [hf] at h; cases h; cases hm
      | panic => rw [hf] at h; cases h
  | final epoch block state =>
    change some (processFinal s epoch block state) = some (s', out) at h
    unfold processFinal at h
    split at h
    · cases h; cases hm
    · split at h
      · cases h; cases hm
      · split at h
        · cases h; cases hm
        · cases h
          simp at hm

theorem run_cons (u : Rules) (s : State R) (e : Event R) (es : List (Event R)) :
    run u s (e :: es) = match step u s e with
      | none => none
      | some (s', out) =>
        match run u s' es with
        | none => none
        | some (s'', out') => some (s'', out ++ out') := rfl

theorem run_append {u : Rules} (es es' : List (Event R)) : ∀ (s : State R),
    run u s (es ++ es') = match run u s es with
      | none => none
      | some (s1, out) =>
        match run u s1 es' with
        | none => none
        | some (s2, out') => some (s2, out ++ out') := by
  induction es with
  | nil =>
    intro s
    show run u s es' = match some (s, ([] : List (Effect R))) with | none => none | some (s1, out) => match run u s1 es' with | none => none | some (s2, out') => some (s2, out ++ out')
    simp only
    cases run u s es' with
    | none => rfl
    | some x => rfl
  | cons e es ih =>
    intro s
    rw [List.cons_append, run_cons, run_cons]
    cases step u s e with
    | none => rfl
    | some x =>
      obtain ⟨s1, o1⟩ := x
      simp only
      rw [ih s1]
      cases run u s1 es with
      | none => rfl
      | some y =>
        obtain ⟨s2, o2⟩ := y
        simp only
        cases run u s2 es' with
        | none => rfl
        | some z => simp

theorem run_mem {u : Rules} (es : List (Event R)) : ∀ {s s' : State R} {out : List (Effect R)},
    run u s es = some (s', out) → ∀ x ∈ out, ∃ pre e post s1 s2 o1 o2, es = pre ++ e :: post ∧
      run u s pre = some (s1, o1) ∧ step u s1 e = some (s2, o2) ∧ x ∈ o2 := by
  induction es with
  | nil => intro s s' out h x hx; unfold run at h; cases h; cases hx
  | cons e es ih =>
    intro s s' out h x hx
    unfold run at h
    cases hs : step u s e with
    | none => rw [hs] at h; cases h
    | some y =>
      obtain ⟨s1, o1⟩ := y
      simp only [hs] at h
      cases hr : run u s1 es with
      | none => rw [hr] at h; cases h
      | some z =>
        obtain ⟨s2, o2⟩ := z
        simp only [hr] at h
        cases h
        rcases List.mem_append.1 hx with hx | hx
        · exact ⟨[], e, es, s, s1, [], o1, rfl, rfl, hs, hx⟩
        · obtain ⟨pre, e', post, s3, s4, o3, o4, h1, h2, h3, h4⟩ := ih hr x hx
          refine ⟨e :: pre, e', post, s3, s4, o1 ++ o3, o4, by rw [h1]; rfl, ?_, h3, h4⟩
          unfold run
          rw [hs]
          simp only
          rw [h2]

/-! ## Receipts when there is no reorg -/

/-- Every cached entry belongs to a block that was downloaded, and so does every stored block. -/
structure Recorded (got : Block → Prop) (truth : Block → R) (s : State R) : Prop where
  blocks : ∀ e ∈ s.blocks, got e.2
  receipts : ∀ e ∈ s.receipts, ∃ b, got b ∧ b.number = e.1 ∧ e.2 = truth b

theorem lookup_mem {m : List (Id × Block)} {r : Id} {b : Block} (h : lookup m r = some b) : (r, b) ∈ m := by
  unfold lookup at h
  rw [Option.map_eq_some_iff] at h
  obtain ⟨⟨r', b'⟩, h1, h2⟩ := h
  have := List.mem_of_find?_eq_some h1
  have h3 := List.find?_some h1
  simp only [decide_eq_true_eq] at h3
  subst h2
  subst h3
  exact this

theorem lruGet_mem {l l' : List (Nat × R)} {k : Nat} {v : R} (h : lruGet l k = some (v, l')) :
    (k, v) ∈ l ∧ ∀ e, e ∈ l' ↔ e = (k, v) ∨ (e ∈ l ∧ e.1 ≠ k) := by
  unfold lruGet at h
  cases hf : l.find? (fun e => e.1 = k) with
  | none => rw [hf] at h; cases h
  | some e =>
    rw [hf] at h
    simp only [Option.some.injEq, Prod.mk.injEq] at h
    obtain ⟨h1, h2⟩ := h
    have h3 := List.find?_some hf
    simp only [decide_eq_true_eq] at h3
    have he : e = (k, v) := by rw [← h1, ← h3]
    subst he
    refine ⟨List.mem_of_find?_eq_some hf, fun x => ?_⟩
    rw [← h2]
    simp

theorem fill_recorded {u : Rules} {head : Id} {got : Block → Prop} {truth : Block → R}
    (huniq : ∀ b b', got b → got b' → b.number = b'.number → b = b') : ∀ (n : Nat) {s : State R}
    {bundle : List (Block × R)}, Recorded got truth s → (∀ x ∈ bundle, x.2 = truth x.1) →
    match fill u head n s bundle with
    | .ok s' bundle' => Recorded got truth s' ∧ ∀ x ∈ bundle', x.2 = truth x.1
    | .error s' => Recorded got truth s'
    | .panic => True := by
  intro n
  induction n with
  | zero => intro s bundle hs hb; exact ⟨hs, hb⟩
  | succ n ih =>
    intro s bundle hs hb
    have hget : ∀ (b : Block) rc l, lruGet s.receipts b.number = some (rc, l) → Recorded got truth { s with receipts := l } := by
      intro b rc l hl
      obtain ⟨h1, h2⟩ := lruGet_mem hl
      refine ⟨hs.blocks, fun e he => ?_⟩
      rcases (h2 e).1 he with rfl | ⟨h3, _⟩
      · exact hs.receipts _ h1
      · exact hs.receipts _ h3
    cases ha : appendNext u s head bundle with
    | panic =>
      have e : fill u head (n + 1) s bundle = .panic := by show (match appendNext u s head bundle with | .ok s' bundle' => fill u head n s' bundle' | .error s' => .error s' | .panic => .panic) = _; rw [ha]
      rw [e]; trivial
    | error s' =>
      have e : fill u head (n + 1) s bundle = .error s' := by show (match appendNext u s head bundle with | .ok s' bundle' => fill u head n s' bundle' | .error s' => .error s' | .panic => .panic) = _; rw [ha]
      rw [e]
      show Recorded got truth s'
      unfold appendNext at ha
      split at ha
      · injection ha with ha; rw [← ha]; exact hs
      · split at ha
        · injection ha with ha; rw [← ha]; exact hs
        · rename_i b _ x l hl
          split at ha
          · split at ha <;> cases ha
          · injection ha with ha; rw [← ha]; exact hget _ _ _ hl
    | ok s' bundle' =>
      have e : fill u head (n + 1) s bundle = fill u head n s' bundle' := by show (match appendNext u s head bundle with | .ok s' bundle' => fill u head n s' bundle' | .error s' => .error s' | .panic => .panic) = _; rw [ha]
      rw [e]
      obtain ⟨b, rc, l, h1, h2, _, _, h3, h4⟩ := appendNext_ok ha
      subst h3
      subst h4
      refine ih (hget _ _ _ h2) fun x hx => ?_
      rcases List.mem_append.1 hx with hx | hx
      · exact hb x hx
      · simp only [List.mem_singleton] at hx
        subst hx
        obtain ⟨b', hg', hn', hv'⟩ := hs.receipts _ (lruGet_mem h2).1
        have := huniq b' b hg' (hs.blocks _ (lookup_mem h1)) hn'
        subst this
        exact hv'

theorem remove_sub {m : List (Id × Block)} {r : Id} {e : Id × Block} (h : e ∈ remove m r) : e ∈ m := by
  unfold remove at h
  exact (List.mem_filter.1 h).1

theorem walk_sub {first : Nat} : ∀ (fuel : Nat) {m : List (Id × Block)} {r : Id} {acc : List Block},
    match walk first fuel m r acc with
    | .ok m' _ => ∀ e ∈ m', e ∈ m
    | .error m' => ∀ e ∈ m', e ∈ m := by
  intro fuel
  induction fuel with
  | zero => intro m r acc; exact fun e he => he
  | succ fuel ih =>
    intro m r acc
    unfold walk
    cases hl : lookup m r with
    | none => exact fun e he => he
    | some b =>
      simp only
      by_cases hp : firstSlotInPeriod b.slot = first
      · rw [if_pos hp]
        have := @ih (remove m r) b.parent (acc ++ [b])
        revert this
        cases walk first fuel (remove m r) b.parent (acc ++ [b]) with
        | ok m' bs => exact fun h e he => remove_sub (h e he)
        | error m' => exact fun h e he => remove_sub (h e he)
      · rw [if_neg hp]
        exact fun e he => remove_sub he

theorem processFinal_sub {s : State R} {epoch : Nat} {block state : Id} :
    (∀ e ∈ (processFinal s epoch block state).1.blocks, e ∈ s.blocks) ∧
      (processFinal s epoch block state).1.receipts = s.receipts := by
  unfold processFinal
  split
  · exact ⟨fun e he => he, rfl⟩
  · split
    · exact ⟨fun e he => he, rfl⟩
    · rename_i b _
      have := @walk_sub (firstSlotInPeriod ((epoch + 2 ^ 64 - 1) % 2 ^ 64 * slotsPerEpoch % 2 ^ 64)) s.blocks.length
        s.blocks b.parent []
      split
      · rename_i m hw
        rw [hw] at this
        exact ⟨this, rfl⟩
      · rename_i m bs hw
        rw [hw] at this
        exact ⟨fun e he => this e (List.mem_filter.1 he).1, rfl⟩

theorem download_recorded {api : Api R} {got : Block → Prop} {truth : Block → R}
    (hgot : ∀ r b, api.block r = some b → got b)
    (htruth : ∀ r b rc, api.block r = some b → api.receipts r b.number = some rc → rc = truth b) :
    ∀ (n : Nat) {s : State R} {r : Id}, Recorded got truth s → Recorded got truth (download api n s r) := by
  intro n
  induction n with
  | zero => intro s r hs; exact hs
  | succ n ih =>
    intro s r hs
    unfold download
    cases hd : getOrDownload api s r with
    | none => exact hs
    | some x =>
      obtain ⟨s', b⟩ := x
      simp only
      refine ih ?_
      unfold getOrDownload at hd
      split at hd
      · cases hd; exact hs
      · split at hd
        · cases hd
        · rename_i b' hb'
          split at hd
          · cases hd
          · rename_i rc hrc
            cases hd
            refine ⟨fun e he => ?_, fun e he => ?_⟩
            · rcases List.mem_cons.1 he with rfl | he
              · exact hgot _ _ hb'
              · exact hs.blocks e he
            · unfold lruPush at he
              rcases List.mem_cons.1 he with rfl | he
              · exact ⟨_, hgot _ _ hb', rfl, htruth _ _ _ hb' hrc⟩
              · exact hs.receipts e (List.mem_filter.1 (List.mem_of_mem_take he)).1

theorem run_recorded {u : Rules} {got : Block → Prop} {truth : Block → R}
    (huniq : ∀ b b', got b → got b' → b.number = b'.number → b = b') (es : List (Event R)) :
    ∀ {s s' : State R} {out : List (Effect R)},
    (∀ r0 api, Event.head r0 api ∈ es → (∀ r b, api.block r = some b → got b) ∧
      ∀ r b rc, api.block r = some b → api.receipts r b.number = some rc → rc = truth b) →
    Recorded got truth s → run u s es = some (s', out) →
    Recorded got truth s' ∧ ∀ head bs, Effect.bundle head bs ∈ out → ∀ x ∈ bs, x.2 = truth x.1 := by
  induction es with
  | nil => intro s s' out _ hs h; unfold run at h; cases h; exact ⟨hs, fun _ _ h => by cases h⟩
  | cons e es ih =>
    intro s s' out hapi hs h
    unfold run at h
    cases hst : step u s e with
    | none => rw [hst] at h; cases h
    | some y =>
      obtain ⟨s1, o1⟩ := y
      simp only [hst] at h
      cases hr : run u s1 es with
      | none => rw [hr] at h; cases h
      | some z =>
        obtain ⟨s2, o2⟩ := z
        simp only [hr] at h
        cases h
        have hs1 : Recorded got truth s1 := by
          cases e with
          | head r api =>
            unfold step at hst
            cases hst
            obtain ⟨h1, h2⟩ := hapi r api List.mem_cons_self
            exact download_recorded h1 h2 _ hs
          | update hd =>
            change processUpdate u s hd = some (s1, o1) at hst
            unfold processUpdate at hst
            split at hst
            · cases hst; exact hs
            · have := fill_recorded (u := u) (head := hd) huniq totalBufferCount (bundle := []) hs (fun x hx => by cases hx)
              revert this hst
              cases fill u hd totalBufferCount s [] with
              | ok s1 b1 => intro hst this; cases hst; exact this.1
              | error s1 => intro hst this; cases hst; exact this
              | panic => intro hst; cases hst
          | final epoch block state =>
            change some (processFinal s epoch block state) = some (s1, o1) at hst
            have h1 := @processFinal_sub R s epoch block state
            have h2 := Option.some.inj hst
            rw [h2] at h1
            exact ⟨fun e he => hs.blocks e (h1.1 e he), fun e he => hs.receipts e (by rw [← h1.2]; exact he)⟩
        obtain ⟨h1, h2⟩ := ih (fun r0 api h => hapi r0 api (List.mem_cons_of_mem _ h)) hs1 hr
        refine ⟨h1, fun head bs hm => ?_⟩
        rcases List.mem_append.1 hm with hm | hm
        · obtain ⟨_, s3, hf⟩ := step_bundle hst hm
          have := fill_recorded (u := u) (head := head) huniq totalBufferCount (bundle := []) hs (fun x hx => by cases hx)
          rw [hf] at this
          exact this.2
        · exact h2 head bs hm

/-! ## Following one chain -/

section follow
variable {u : Rules} {chain : Nat → Block} {len : Nat} {receipts : Nat → R}

/-- The map has exactly the blocks of the chain with an index in `P`. -/
def Holds (u : Rules) (chain : Nat → Block) (len : Nat) (m : List (Id × Block)) (P : Nat → Prop) : Prop :=
  (∀ r b, lookup m r = some b ↔ ∃ k, P k ∧ r = u.root (chain k) ∧ b = chain k) ∧
    (∀ e ∈ m, ∃ k, P k ∧ e = (u.root (chain k), chain k)) ∧ ∀ k, P k → k ≤ len

/-- The cache has all late entries with a number in `D`. -/
structure Cached (receipts : Nat → R) (l : List (Nat × R)) (i : Nat) (D : Nat → Prop) : Prop where
  nodup : (l.map (·.1)).Nodup
  le : ∀ e ∈ l, e.1 ≤ i
  order : l.Pairwise fun x y => y.1 ≤ x.1 + 31
  value : ∀ e ∈ l, e.2 = receipts e.1
  has : ∀ k, D k → k ≤ i → i ≤ k + 31 → (k, receipts k) ∈ l

theorem holds_congr {m : List (Id × Block)} {P Q : Nat → Prop} (h : Holds u chain len m P) (hpq : ∀ k, P k ↔ Q k) :
    Holds u chain len m Q := by
  refine ⟨fun r b => ?_, fun e he => by
    obtain ⟨k, h1, h2⟩ := h.2.1 e he
    exact ⟨k, (hpq k).1 h1, h2⟩, fun k hk => h.2.2 k ((hpq k).2 hk)⟩
  rw [h.1 r b]
  constructor <;> rintro ⟨k, h1, h2⟩
  · exact ⟨k, (hpq k).1 h1, h2⟩
  · exact ⟨k, (hpq k).2 h1, h2⟩

theorem holds_some {m : List (Id × Block)} {P : Nat → Prop} (h : Holds u chain len m P) {k : Nat} (hk : P k) :
    lookup m (u.root (chain k)) = some (chain k) := (h.1 _ _).2 ⟨k, hk, rfl, rfl⟩

theorem holds_none (hc : BeaconChain u chain len) {m : List (Id × Block)} {P : Nat → Prop} (h : Holds u chain len m P) {k : Nat}
    (hkl : k ≤ len) (hk : ¬ P k) : lookup m (u.root (chain k)) = none := by
  cases hl : lookup m (u.root (chain k)) with
  | none => rfl
  | some b =>
    obtain ⟨j, h1, h2, _⟩ := (h.1 _ _).1 hl
    exact absurd (hc.distinct _ _ hkl (h.2.2 j h1) h2 ▸ h1) hk

theorem holds_insert (hc : BeaconChain u chain len) {m : List (Id × Block)} {P : Nat → Prop} (h : Holds u chain len m P) (n : Nat) (hn : n ≤ len) :
    Holds u chain len ((u.root (chain n), chain n) :: m) fun k => P k ∨ k = n := by
  refine ⟨fun r b => ?_, fun e he => by
    rcases List.mem_cons.1 he with rfl | he
    · exact ⟨n, .inr rfl, rfl⟩
    · obtain ⟨k, h1, h2⟩ := h.2.1 e he
      exact ⟨k, .inl h1, h2⟩, fun k hk => by
    rcases hk with hk | rfl
    · exact h.2.2 k hk
    · exact hn⟩
  have e : lookup ((u.root (chain n), chain n) :: m) r = if u.root (chain n) = r then some (chain n) else lookup m r := by
    unfold lookup
    rw [List.find?_cons]
    by_cases hr : u.root (chain n) = r
    · simp [hr]
    · simp [hr]
  rw [e]
  by_cases hr : u.root (chain n) = r
  · rw [if_pos hr]
    constructor
    · intro hb
      exact ⟨n, .inr rfl, hr.symm, (Option.some.inj hb).symm⟩
    · rintro ⟨k, hk, h2, h3⟩
      have := hc.distinct _ _ hn (hk.elim (h.2.2 k) (fun h => h ▸ hn)) (hr.trans h2)
      rw [h3, this]
  · rw [if_neg hr, h.1 r b]
    constructor
    · rintro ⟨k, h1, h2⟩
      exact ⟨k, .inl h1, h2⟩
    · rintro ⟨k, h1 | h1, h2, h3⟩
      · exact ⟨k, h1, h2, h3⟩
      · exact absurd (h1 ▸ h2.symm) hr

theorem lookup_remove (m : List (Id × Block)) (r r' : Id) :
    lookup (remove m r) r' = if r = r' then none else lookup m r' := by
  unfold lookup remove
  rw [List.find?_filter]
  by_cases hr : r = r'
  · subst hr
    rw [if_pos rfl]
    simp
  · rw [if_neg hr]
    congr 1
    apply congrFun
    congr 1
    funext e
    by_cases he : e.1 = r'
    · simp [he, Ne.symm hr]
    · simp [he]

theorem holds_remove (hc : BeaconChain u chain len) {m : List (Id × Block)} {P : Nat → Prop} (h : Holds u chain len m P) (n : Nat) (hn : n ≤ len) :
    Holds u chain len (remove m (u.root (chain n))) fun k => P k ∧ k ≠ n := by
  refine ⟨fun r b => ?_, fun e he => by
    unfold remove at he
    obtain ⟨h0, h3⟩ := List.mem_filter.1 he
    obtain ⟨k, h1, h2⟩ := h.2.1 e h0
    refine ⟨k, ⟨h1, fun hk => ?_⟩, h2⟩
    rw [h2, hk] at h3
    simp at h3, fun k hk => h.2.2 k hk.1⟩
  rw [lookup_remove]
  by_cases hr : u.root (chain n) = r
  · rw [if_pos hr]
    constructor
    · intro hb; cases hb
    · rintro ⟨k, ⟨h0, h1⟩, h2, _⟩
      exact absurd (hc.distinct _ _ hn (h.2.2 k h0) (hr.trans h2)).symm h1
  · rw [if_neg hr, h.1 r b]
    constructor
    · rintro ⟨k, h1, h2, h3⟩
      refine ⟨k, ⟨h1, fun hk => hr ?_⟩, h2, h3⟩
      rw [h2, hk]
    · rintro ⟨k, ⟨h1, _⟩, h2⟩
      exact ⟨k, h1, h2⟩

theorem remove_length {m : List (Id × Block)} {r : Id} {b : Block} (h : lookup m r = some b) :
    (remove m r).length < m.length := by
  unfold remove
  exact List.length_filter_lt_length_iff_exists.2 ⟨_, lookup_mem h, by simp⟩

/-- A list of different numbers below a bound is short. -/
theorem nodup_length : ∀ (n : Nat) {l : List Nat}, l.Nodup → (∀ x ∈ l, x < n) → l.length ≤ n := by
  intro n
  induction n with
  | zero =>
    intro l _ h
    cases l with
    | nil => exact Nat.le_refl _
    | cons a l => exact absurd (h a List.mem_cons_self) (by omega)
  | succ n ih =>
    intro l hn h
    have h1 : (l.filter fun x => x ≠ n).length ≤ n := by
      refine ih (hn.filter _) fun x hx => ?_
      obtain ⟨h2, h3⟩ := List.mem_filter.1 hx
      have := h x h2
      simp only [decide_eq_true_eq, ne_eq] at h3
      omega
    have h2 : l.length ≤ (l.filter fun x => x ≠ n).length + 1 := by
      clear ih h h1
      induction l with
      | nil => exact Nat.zero_le _
      | cons a l ih =>
        obtain ⟨h3, h4⟩ := List.nodup_cons.1 hn
        by_cases ha : a = n
        · subst ha
          have : (l.filter fun x => x ≠ a) = l := by
            rw [List.filter_eq_self]
            intro x hx
            simp only [decide_eq_true_eq, ne_eq]
            intro hxa
            exact h3 (hxa ▸ hx)
          rw [List.filter_cons, this]
          simp
        · rw [List.filter_cons, if_pos (by simp [ha])]
          simp only [List.length_cons]
          have := ih h4
          omega
    omega

theorem cached_mono {l : List (Nat × R)} {i j : Nat} {D : Nat → Prop} (h : Cached receipts l i D) (hij : i ≤ j)
    (hd : ∀ k, D k → k ≤ i) : Cached receipts l j D where
  nodup := h.nodup
  le := fun e he => Nat.le_trans (h.le e he) hij
  order := h.order
  value := h.value
  has := fun k hk hkj hjk => h.has k hk (hd k hk) (by omega)

theorem filter_cached {l : List (Nat × R)} {i : Nat} {D : Nat → Prop} (h : Cached receipts l i D) (n : Nat) :
    Cached receipts (l.filter fun e => e.1 ≠ n) i fun k => D k ∧ k ≠ n where
  nodup := h.nodup.sublist (List.filter_sublist.map _)
  le := fun e he => h.le e (List.mem_filter.1 he).1
  order := h.order.sublist List.filter_sublist
  value := fun e he => h.value e (List.mem_filter.1 he).1
  has := fun k hk hki hik => List.mem_filter.2 ⟨h.has k hk.1 hki hik, by simp [hk.2]⟩

theorem take_cached {l : List (Nat × R)} {i : Nat} {D : Nat → Prop} (h : Cached receipts l i D) :
    Cached receipts (l.take 63) i D where
  nodup := h.nodup.sublist ((List.take_sublist _ _).map _)
  le := fun e he => h.le e (List.mem_of_mem_take he)
  order := h.order.sublist (List.take_sublist _ _)
  value := fun e he => h.value e (List.mem_of_mem_take he)
  has := by
    intro k hk hki hik
    have hmem := h.has k hk hki hik
    obtain ⟨pre, post, hl⟩ := List.append_of_mem hmem
    have hpre : pre.length ≤ 62 := by
      have hn := h.nodup
      rw [hl, List.map_append, List.map_cons] at hn
      have hn' := hn.sublist (List.Sublist.append_left (List.Sublist.cons_cons k (List.nil_sublist _)) _ : (pre.map (·.1) ++ [k]).Sublist _)
      have hall : ∀ x ∈ pre.map (·.1) ++ [k], k ≤ x + 31 ∧ x ≤ i := by
        intro x hx
        rcases List.mem_append.1 hx with hx | hx
        · obtain ⟨e, he, rfl⟩ := List.mem_map.1 hx
          have ho := h.order
          rw [hl] at ho
          exact ⟨(List.pairwise_append.1 ho).2.2 e he _ List.mem_cons_self, h.le e (by rw [hl]; exact List.mem_append_left _ he)⟩
        · simp only [List.mem_singleton] at hx
          subst hx
          omega
      have hlen := nodup_length 63 (l := (pre.map (·.1) ++ [k]).map fun x => x + 31 - k) (by
        refine List.pairwise_map.2 (hn'.imp_of_mem ?_)
        intro a b ha hb hab hcon
        have := hall a ha
        have := hall b hb
        exact hab (by omega)) (by
        intro x hx
        obtain ⟨y, hy, rfl⟩ := List.mem_map.1 hx
        have := hall y hy
        omega)
      simp only [List.length_map, List.length_append, List.length_singleton] at hlen
      omega
    rw [hl, List.take_append]
    refine List.mem_append_right _ ?_
    obtain ⟨m, hm⟩ : ∃ m, 63 - pre.length = m + 1 := ⟨62 - pre.length, by omega⟩
    rw [hm]
    exact List.mem_cons_self

theorem cons_cached {l : List (Nat × R)} {i n : Nat} {D E : Nat → Prop} (h : Cached receipts l i E)
    (hne : ∀ e ∈ l, e.1 ≠ n) (hn : n ≤ i) (hin : i ≤ n + 31) (hd : ∀ k, D k → E k ∨ k = n) :
    Cached receipts ((n, receipts n) :: l) i D where
  nodup := by
    rw [List.map_cons, List.nodup_cons]
    refine ⟨fun hx => ?_, h.nodup⟩
    obtain ⟨e, he, hen⟩ := List.mem_map.1 hx
    exact hne e he hen
  le := by
    intro e he
    rcases List.mem_cons.1 he with rfl | he
    · exact hn
    · exact h.le e he
  order := by
    refine List.pairwise_cons.2 ⟨fun e he => ?_, h.order⟩
    have := h.le e he
    show e.1 ≤ n + 31
    omega
  value := by
    intro e he
    rcases List.mem_cons.1 he with rfl | he
    · rfl
    · exact h.value e he
  has := by
    intro k hk hki hik
    rcases hd k hk with hk | rfl
    · exact List.mem_cons_of_mem _ (h.has k hk hki hik)
    · exact List.mem_cons_self

theorem push_cached {l : List (Nat × R)} {i n : Nat} {D : Nat → Prop} (h : Cached receipts l i D) (hn : n ≤ i)
    (hin : i ≤ n + 31) : Cached receipts (lruPush receiptsCapacity l n (receipts n)) i fun k => D k ∨ k = n := by
  have h1 : receiptsCapacity - 1 = 63 := rfl
  unfold lruPush
  rw [h1]
  refine cons_cached (take_cached (filter_cached h n)) (fun e he => ?_) hn hin fun k hk => ?_
  · have := (List.mem_filter.1 (List.mem_of_mem_take he)).2
    simpa using this
  · by_cases hkn : k = n
    · exact .inr hkn
    · exact .inl ⟨hk.resolve_right hkn, hkn⟩

theorem get_cached {l l' : List (Nat × R)} {i n : Nat} {D : Nat → Prop} {v : R} (h : Cached receipts l i D)
    (hin : i ≤ n + 31) (hg : lruGet l n = some (v, l')) : v = receipts n ∧ Cached receipts l' i D := by
  obtain ⟨h1, h2⟩ := lruGet_mem hg
  have hv : v = receipts n := h.value _ h1
  refine ⟨hv, ?_⟩
  have he : l' = (n, receipts n) :: l.filter fun e => e.1 ≠ n := by
    unfold lruGet at hg
    split at hg
    · cases hg
    · rename_i e hf
      have hh := Option.some.inj hg
      injection hh with h3 h4
      have h5 := List.find?_some hf
      simp only [decide_eq_true_eq] at h5
      rw [← h4, ← hv, ← h3, ← h5]
  rw [he]
  refine cons_cached (filter_cached h n) (fun e he => ?_) (h.le _ h1) hin fun k hk => ?_
  · have := (List.mem_filter.1 he).2
    simpa using this
  · by_cases hkn : k = n
    · exact .inr hkn
    · exact .inl ⟨hk, hkn⟩

theorem get_some {l : List (Nat × R)} {n : Nat} {v : R} (h : (n, v) ∈ l) : ∃ v' l', lruGet l n = some (v', l') := by
  unfold lruGet
  cases hf : l.find? (fun e => e.1 = n) with
  | none =>
    have := List.find?_eq_none.1 hf _ h
    simp at this
  | some e => exact ⟨_, _, rfl⟩

/-! ### Heads -/

theorem download_follow (hc : BeaconChain u chain len) {api : Api R} (ha : Answers u chain len receipts api) {j : Nat} :
    ∀ (cnt n : Nat) {s : State R} {P : Nat → Prop}, cnt ≤ n + 1 → n ≤ j → j ≤ len → j ≤ n + 1 - cnt + 31 →
    Holds u chain len s.blocks P → Cached receipts s.receipts j P →
    Holds u chain len (download api cnt s (u.root (chain n))).blocks (fun k => P k ∨ (k ≤ n ∧ n < k + cnt)) ∧
      Cached receipts (download api cnt s (u.root (chain n))).receipts j (fun k => P k ∨ (k ≤ n ∧ n < k + cnt)) := by
  intro cnt
  induction cnt with
  | zero =>
    intro n s P _ _ _ _ hh hr
    refine ⟨holds_congr hh fun k => ⟨.inl, fun h => h.resolve_right (by omega)⟩, hr.nodup, hr.le, hr.order, hr.value, ?_⟩
    exact fun k hk => hr.has k (hk.resolve_right (by omega))
  | succ cnt ih =>
    intro n s P hcn hnj hjl hjn hh hr
    have hstep : ∃ s', getOrDownload api s (u.root (chain n)) = some (s', chain n) ∧
        Holds u chain len s'.blocks (fun k => P k ∨ k = n) ∧ Cached receipts s'.receipts j (fun k => P k ∨ k = n) := by
      unfold getOrDownload
      cases hl : lookup s.blocks (u.root (chain n)) with
      | some b =>
        obtain ⟨k, hk, h1, h2⟩ := (hh.1 _ _).1 hl
        have hkn := hc.distinct _ _ (by omega) (hh.2.2 k hk) h1
        subst hkn
        refine ⟨s, by rw [h2], holds_congr hh fun k => ⟨.inl, ?_⟩, hr.nodup, hr.le, hr.order, hr.value, ?_⟩
        · rintro (h | rfl)
          · exact h
          · exact hk
        · rintro k' (h | rfl)
          · exact hr.has k' h
          · exact hr.has k' hk
      | none =>
        obtain ⟨h1, h2⟩ := ha n (by omega)
        simp only [h1, hc.number, h2]
        exact ⟨_, rfl, holds_insert hc hh n (by omega), push_cached hr hnj (by omega)⟩
    obtain ⟨s', hg, hh', hr'⟩ := hstep
    have e : download api (cnt + 1) s (u.root (chain n)) = download api cnt s' (chain n).parent := by
      show (match getOrDownload api s (u.root (chain n)) with | none => s | some (s', b) => download api cnt s' b.parent) = _
      rw [hg]
    rw [e]
    cases cnt with
    | zero =>
      unfold download
      refine ⟨holds_congr hh' fun k => ?_, hr'.nodup, hr'.le, hr'.order, hr'.value, ?_⟩
      · constructor
        · rintro (h | rfl)
          · exact .inl h
          · exact .inr ⟨Nat.le_refl _, by omega⟩
        · rintro (h | h)
          · exact .inl h
          · exact .inr (by omega)
      · rintro k (h | h)
        · exact hr'.has k (.inl h)
        · exact hr'.has k (.inr (by omega))
    | succ cnt =>
      obtain ⟨n', rfl⟩ : ∃ n', n = n' + 1 := ⟨n - 1, by omega⟩
      rw [hc.parent]
      obtain ⟨h1, h2⟩ := ih n' (by omega) (by omega) hjl (by omega) hh' hr'
      refine ⟨holds_congr h1 fun k => ?_, h2.nodup, h2.le, h2.order, h2.value, ?_⟩
      · constructor
        · rintro ((h | rfl) | h)
          · exact .inl h
          · exact .inr ⟨Nat.le_refl _, by omega⟩
          · exact .inr (by omega)
        · rintro (h | h)
          · exact .inl (.inl h)
          · by_cases hk : k = n' + 1
            · exact .inl (.inr hk)
            · exact .inr (by omega)
      · rintro k (h | h)
        · exact h2.has k (.inl (.inl h))
        · by_cases hk : k = n' + 1
          · exact h2.has k (.inl (.inr hk))
          · exact h2.has k (.inr (by omega))

/-! ### Updates -/

/-- The blocks `n, n-1, …`, `cnt` of them, with their receipts. -/
def backFrom (chain : Nat → Block) (receipts : Nat → R) : Nat → Nat → List (Block × R)
  | 0, _ => []
  | cnt + 1, n => (chain n, receipts n) :: backFrom chain receipts cnt (n - 1)

theorem fill_follow (hc : BeaconChain u chain len) {head : Id} {i lo : Nat} (hlo : 0 < lo) :
    ∀ (cnt n : Nat) {s : State R} {bundle : List (Block × R)}, i + cnt ≤ n + 32 → n ≤ len →
    nextParentRoot head bundle = u.root (chain n) →
    Holds u chain len s.blocks (fun k => lo ≤ k ∧ k ≤ i) → Cached receipts s.receipts i (fun k => lo ≤ k ∧ k ≤ i) →
    (∃ s', s'.blocks = s.blocks ∧ Cached receipts s'.receipts i (fun k => lo ≤ k ∧ k ≤ i) ∧
      (fill u head cnt s bundle = .error s' ∨
        fill u head cnt s bundle = .ok s' (bundle ++ backFrom chain receipts cnt n))) ∧
    (n ≤ i → lo + cnt ≤ n + 1 → ∀ s', fill u head cnt s bundle ≠ .error s') := by
  intro cnt
  induction cnt with
  | zero =>
    intro n s bundle _ _ _ _ hr
    refine ⟨⟨s, rfl, hr, .inr (by unfold fill backFrom; simp)⟩, fun _ _ s' h => ?_⟩
    unfold fill at h
    cases h
  | succ cnt ih =>
    intro n s bundle hic hnl hroot hh hr
    by_cases hn : lo ≤ n ∧ n ≤ i
    · have hl := holds_some hh hn
      have hmem : (n, receipts n) ∈ s.receipts := hr.has n hn hn.2 (by omega)
      obtain ⟨v, l, hg⟩ := get_some hmem
      obtain ⟨hv, hr'⟩ := get_cached hr (by omega) hg
      subst hv
      have ha : appendNext u s head bundle = .ok { s with receipts := l } (bundle ++ [(chain n, receipts n)]) := by
        unfold appendNext
        rw [hroot, hl]
        simp only [hc.number, hg]
        rw [if_pos trivial, if_pos (hc.builds n)]
      have e : fill u head (cnt + 1) s bundle =
          fill u head cnt { s with receipts := l } (bundle ++ [(chain n, receipts n)]) := by
        show (match appendNext u s head bundle with | .ok s' bundle' => fill u head cnt s' bundle' | .error s' => .error s' | .panic => .panic) = _
        rw [ha]
      rw [e]
      obtain ⟨n', rfl⟩ : ∃ n', n = n' + 1 := ⟨n - 1, by omega⟩
      obtain ⟨⟨s', h1, h2, h3⟩, h4⟩ := ih n' (s := { s with receipts := l }) (bundle := bundle ++ [(chain (n' + 1), receipts (n' + 1))])
        (by omega) (by omega) (by rw [nextParentRoot_snoc, hc.parent]) hh hr'
      refine ⟨⟨s', h1, h2, ?_⟩, fun h5 h6 => h4 (by omega) (by omega)⟩
      rcases h3 with h3 | h3
      · exact .inl h3
      · refine .inr ?_
        rw [h3]
        show _ = Appended.ok s' (bundle ++ ((chain (n' + 1), receipts (n' + 1)) :: backFrom chain receipts cnt (n' + 1 - 1)))
        simp
    · have hl : lookup s.blocks (nextParentRoot head bundle) = none := by
        rw [hroot]; exact holds_none hc hh hnl hn
      have e : fill u head (cnt + 1) s bundle = .error s := by
        show (match appendNext u s head bundle with | .ok s' bundle' => fill u head cnt s' bundle' | .error s' => .error s' | .panic => .panic) = _
        unfold appendNext
        rw [hl]
      refine ⟨⟨s, rfl, hr, .inl e⟩, fun h1 h2 => absurd ⟨by omega, h1⟩ hn⟩

theorem range_map_succ {α : Type} (f : Nat → α) (n : Nat) :
    (List.range (n + 1)).map f = (List.range n).map f ++ [f n] := by
  rw [List.range_succ, List.map_append]; rfl

theorem backFrom_eq (hc : BeaconChain u chain len) : ∀ (cnt lo n : Nat), n + 1 = lo + cnt →
    backFrom chain receipts cnt n = (blocksBack chain lo (n + 1)).map fun b => (b, receipts b.number) := by
  intro cnt
  induction cnt with
  | zero =>
    intro lo n h
    unfold backFrom blocksBack
    rw [show n + 1 - lo = 0 by omega]
    rfl
  | succ cnt ih =>
    intro lo n h
    unfold backFrom
    have e : blocksBack chain lo (n + 1) = chain n :: blocksBack chain lo n := by
      unfold blocksBack
      rw [show n + 1 - lo = (n - lo) + 1 by omega, range_map_succ, List.reverse_append]
      rw [show lo + (n - lo) = n by omega]
      rfl
    rw [e, List.map_cons, hc.number]
    cases cnt with
    | zero =>
      unfold backFrom blocksBack
      rw [show n - lo = 0 by omega]
      rfl
    | succ cnt =>
      rw [ih lo (n - 1) (by omega), show n - 1 + 1 = n by omega]

/-! ### Checkpoints -/

theorem walk_ok (hc : BeaconChain u chain len) {first lo : Nat} : ∀ (cnt fuel : Nat) {m : List (Id × Block)}
    {r : Id} {P : Nat → Prop} {acc : List Block}, m.length ≤ fuel → lo + 1 + cnt ≤ len + 1 → r = u.root (chain (lo + 1 + cnt - 1)) → ¬ P lo →
    (∀ k, lo + 1 ≤ k → k < lo + 1 + cnt → P k ∧ firstSlotInPeriod (chain k).slot = first) → Holds u chain len m P →
    ∃ m', walk first fuel m r acc = .ok m' (acc ++ blocksBack chain (lo + 1) (lo + 1 + cnt)) ∧
      Holds u chain len m' fun k => P k ∧ ¬ (lo + 1 ≤ k ∧ k < lo + 1 + cnt) := by
  intro cnt
  induction cnt with
  | zero =>
    intro fuel m r P acc _ hle hr hlo _ hh
    have hn : lookup m r = none := by rw [hr]; exact holds_none hc hh (by omega) (by simpa using hlo)
    refine ⟨m, ?_, holds_congr hh fun k => ⟨fun h => ⟨h, by omega⟩, fun h => h.1⟩⟩
    have : blocksBack chain (lo + 1) (lo + 1 + 0) = [] := by unfold blocksBack; simp
    rw [this, List.append_nil]
    cases fuel with
    | zero => rfl
    | succ fuel => unfold walk; rw [hn]
  | succ cnt ih =>
    intro fuel m r P acc hf hle hr hlo hall hh
    obtain ⟨hp, hs⟩ := hall (lo + 1 + cnt) (by omega) (by omega)
    have hr' : r = u.root (chain (lo + 1 + cnt)) := hr
    have hl : lookup m r = some (chain (lo + 1 + cnt)) := by rw [hr']; exact holds_some hh hp
    have hlen := remove_length hl
    obtain ⟨fuel, rfl⟩ : ∃ f, fuel = f + 1 := ⟨fuel - 1, by omega⟩
    have hpar : (chain (lo + 1 + cnt)).parent = u.root (chain (lo + 1 + cnt - 1)) := by
      have := hc.parent (lo + cnt)
      rw [show lo + 1 + cnt - 1 = lo + cnt by omega, show lo + 1 + cnt = lo + cnt + 1 by omega]
      exact this
    have hh' := holds_remove hc hh (lo + 1 + cnt) (by omega)
    rw [← hr'] at hh'
    obtain ⟨m', h1, h2⟩ := ih fuel (acc := acc ++ [chain (lo + 1 + cnt)]) (by omega) (by omega) hpar (by simp [hlo])
      (fun k h1 h2 => by
        obtain ⟨h3, h4⟩ := hall k h1 (by omega)
        exact ⟨⟨h3, by omega⟩, h4⟩) hh'
    refine ⟨m', ?_, holds_congr h2 fun k => ?_⟩
    · unfold walk
      rw [hl]
      simp only
      rw [if_pos hs, h1]
      have e : blocksBack chain (lo + 1) (lo + 1 + (cnt + 1)) = chain (lo + 1 + cnt) :: blocksBack chain (lo + 1) (lo + 1 + cnt) := by
        unfold blocksBack
        rw [show lo + 1 + (cnt + 1) - (lo + 1) = cnt + 1 by omega, show lo + 1 + cnt - (lo + 1) = cnt by omega,
          range_map_succ, List.reverse_append]
        rfl
      rw [e]
      simp
    · constructor
      · rintro ⟨⟨h3, h4⟩, h5⟩
        exact ⟨h3, by omega⟩
      · rintro ⟨h3, h4⟩
        exact ⟨⟨h3, by omega⟩, by omega⟩

theorem walk_error (hc : BeaconChain u chain len) {first lo : Nat} : ∀ (cnt fuel : Nat) {m : List (Id × Block)}
    {r : Id} {P : Nat → Prop} {acc : List Block}, m.length ≤ fuel → lo + 1 + cnt ≤ len + 1 → r = u.root (chain (lo + 1 + cnt - 1)) → P lo →
    firstSlotInPeriod (chain lo).slot ≠ first →
    (∀ k, lo + 1 ≤ k → k < lo + 1 + cnt → P k ∧ firstSlotInPeriod (chain k).slot = first) → Holds u chain len m P →
    ∃ m', walk first fuel m r acc = .error m' ∧
      Holds u chain len m' fun k => P k ∧ ¬ (lo ≤ k ∧ k < lo + 1 + cnt) := by
  intro cnt
  induction cnt with
  | zero =>
    intro fuel m r P acc hf hle hr hlo hne _ hh
    have hr' : r = u.root (chain lo) := hr
    have hl : lookup m r = some (chain lo) := by rw [hr']; exact holds_some hh hlo
    have hlen := remove_length hl
    obtain ⟨fuel, rfl⟩ : ∃ f, fuel = f + 1 := ⟨fuel - 1, by omega⟩
    refine ⟨remove m r, ?_, ?_⟩
    · unfold walk
      rw [hl]
      simp only
      rw [if_neg hne]
    · have := holds_remove hc hh lo (by omega)
      rw [← hr'] at this
      refine holds_congr this fun k => ⟨fun h => ⟨h.1, ?_⟩, fun h => ⟨h.1, ?_⟩⟩
      · have := h.2; omega
      · have := h.2; omega
  | succ cnt ih =>
    intro fuel m r P acc hf hle hr hlo hne hall hh
    obtain ⟨hp, hs⟩ := hall (lo + 1 + cnt) (by omega) (by omega)
    have hr' : r = u.root (chain (lo + 1 + cnt)) := hr
    have hl : lookup m r = some (chain (lo + 1 + cnt)) := by rw [hr']; exact holds_some hh hp
    have hlen := remove_length hl
    obtain ⟨fuel, rfl⟩ : ∃ f, fuel = f + 1 := ⟨fuel - 1, by omega⟩
    have hpar : (chain (lo + 1 + cnt)).parent = u.root (chain (lo + 1 + cnt - 1)) := by
      have := hc.parent (lo + cnt)
      rw [show lo + 1 + cnt - 1 = lo + cnt by omega, show lo + 1 + cnt = lo + cnt + 1 by omega]
      exact this
    have hh' := holds_remove hc hh (lo + 1 + cnt) (by omega)
    rw [← hr'] at hh'
    obtain ⟨m', h1, h2⟩ := ih fuel (acc := acc ++ [chain (lo + 1 + cnt)]) (by omega) (by omega) hpar ⟨hlo, by omega⟩ hne
      (fun k h1 h2 => by
        obtain ⟨h3, h4⟩ := hall k h1 (by omega)
        exact ⟨⟨h3, by omega⟩, h4⟩) hh'
    refine ⟨m', ?_, holds_congr h2 fun k => ?_⟩
    · unfold walk
      rw [hl]
      simp only
      rw [if_pos hs, h1]
    · constructor
      · rintro ⟨⟨h3, h4⟩, h5⟩
        exact ⟨h3, by omega⟩
      · rintro ⟨h3, h4⟩
        exact ⟨⟨h3, by omega⟩, by omega⟩

theorem holds_filter (hc : BeaconChain u chain len) {m : List (Id × Block)} {P : Nat → Prop} (h : Holds u chain len m P) (t : Nat) :
    Holds u chain len (m.filter fun e => t ≤ e.2.slot) fun k => P k ∧ t ≤ (chain k).slot := by
  have hcov := h.2.1
  refine ⟨fun r b => ?_, fun e he => by
    obtain ⟨h0, h3⟩ := List.mem_filter.1 he
    obtain ⟨k, h1, h2⟩ := h.2.1 e h0
    refine ⟨k, ⟨h1, ?_⟩, h2⟩
    rw [h2] at h3
    simpa using h3, fun k hk => h.2.2 k hk.1⟩
  constructor
  · intro hl
    have hm := lookup_mem hl
    obtain ⟨h1, h2⟩ := List.mem_filter.1 hm
    obtain ⟨k, hk, he⟩ := hcov _ h1
    simp only [Prod.mk.injEq] at he
    refine ⟨k, ⟨hk, ?_⟩, he.1, he.2⟩
    rw [← he.2]
    simpa using h2
  · rintro ⟨k, ⟨hk, hs⟩, rfl, rfl⟩
    cases hl : lookup (m.filter fun e => t ≤ e.2.slot) (u.root (chain k)) with
    | none =>
      unfold lookup at hl
      rw [Option.map_eq_none_iff, List.find?_eq_none] at hl
      have := hl (u.root (chain k), chain k) (List.mem_filter.2 ⟨lookup_mem (holds_some h hk), by simpa using hs⟩)
      simp at this
    | some b =>
      obtain ⟨h1, _⟩ := List.mem_filter.1 (lookup_mem hl)
      obtain ⟨j, hj, he⟩ := hcov _ h1
      simp only [Prod.mk.injEq] at he
      rw [he.2, hc.distinct _ _ (h.2.2 k hk) (h.2.2 j hj) he.1]

/-! ### All events -/

/-- The state of a bridge that follows the chain. -/
structure Good (u : Rules) (chain : Nat → Block) (len : Nat) (receipts : Nat → R) (start lo i : Nat) (s : State R) : Prop where
  base : start ≤ lo
  late : lo = start ∨ lo + 31 ≤ i
  full : lo + 12 ≤ i
  blocks : Holds u chain len s.blocks fun k => lo ≤ k ∧ k ≤ i
  cached : Cached receipts s.receipts i fun k => lo ≤ k ∧ k ≤ i

theorem slot_mono (hc : BeaconChain u chain len) {j k : Nat} (h : j ≤ k) : (chain j).slot ≤ (chain k).slot := by
  obtain ⟨d, rfl⟩ : ∃ d, k = j + d := ⟨k - j, by omega⟩
  clear h
  induction d with
  | zero => exact Nat.le_refl _
  | succ d ih => exact Nat.le_trans ih (Nat.le_of_lt (hc.slot (j + d)))

theorem slot_lt (hc : BeaconChain u chain len) {j k : Nat} (h : j < k) : (chain j).slot < (chain k).slot :=
  Nat.lt_of_lt_of_le (hc.slot j) (slot_mono hc h)

theorem good_start (hc : BeaconChain u chain len) {start : Nat} {api : Api R} (hl : start + 12 ≤ len)
    (ha : Answers u chain len receipts api) :
    Good u chain len receipts start start (start + 12) (download api totalBufferCount init (u.root (chain (start + 12)))) := by
  have h0 : Holds u chain len (init (R := R)).blocks fun _ => False :=
    ⟨fun r b => ⟨(fun h => by cases h), fun ⟨_, h, _⟩ => h.elim⟩, (fun e he => by cases he), fun _ h => h.elim⟩
  have h1 : Cached receipts (init (R := R)).receipts (start + 12) fun _ => False :=
    ⟨List.nodup_nil, (fun _ h => by cases h), List.Pairwise.nil, (fun _ h => by cases h), fun _ h => h.elim⟩
  obtain ⟨h2, h3⟩ := download_follow hc ha totalBufferCount (start + 12) (j := start + 12) (by unfold totalBufferCount; omega)
    (Nat.le_refl _) hl (by unfold totalBufferCount; omega) h0 h1
  refine ⟨Nat.le_refl _, .inl rfl, Nat.le_refl _, holds_congr h2 fun k => ?_, h3.nodup, h3.le, h3.order, h3.value, fun k hk => h3.has k (.inr ?_)⟩
  · unfold totalBufferCount
    constructor
    · rintro (h | h)
      · exact h.elim
      · omega
    · intro h
      exact .inr (by omega)
  · unfold totalBufferCount
    omega

theorem good_head (hc : BeaconChain u chain len) {start lo i j : Nat} {s : State R} {api : Api R}
    (hg : Good u chain len receipts start lo i s) (hij : i ≤ j) (hji : j ≤ i + 13) (hl : j ≤ len) (ha : Answers u chain len receipts api) :
    Good u chain len receipts start lo j (download api totalBufferCount s (u.root (chain j))) := by
  have hfull := hg.full
  obtain ⟨h2, h3⟩ := download_follow hc ha totalBufferCount j (j := j) (by unfold totalBufferCount; omega)
    (Nat.le_refl _) hl (by unfold totalBufferCount; omega) hg.blocks (cached_mono hg.cached hij fun k h => h.2)
  refine ⟨hg.base, hg.late.imp_right (by omega), by omega, holds_congr h2 fun k => ?_, h3.nodup, h3.le, h3.order, h3.value, fun k hk => h3.has k ?_⟩
  · unfold totalBufferCount
    constructor
    · rintro (h | h) <;> omega
    · intro h
      by_cases hk : k ≤ i
      · exact .inl ⟨h.1, hk⟩
      · exact .inr (by omega)
  · unfold totalBufferCount
    by_cases hk' : k ≤ i
    · exact .inl ⟨hk.1, hk'⟩
    · exact .inr (by omega)

theorem nonempty {start lo i : Nat} {s : State R} (hg : Good u chain len receipts start lo i s) : s.blocks.isEmpty = false := by
  have h := lookup_mem (holds_some hg.blocks (k := lo) ⟨Nat.le_refl _, by have := hg.full; omega⟩)
  cases hb : s.blocks with
  | nil => rw [hb] at h; cases h
  | cons a l => rfl

theorem good_update (hc : BeaconChain u chain len) {start lo i k : Nat} {s : State R} (hs : 0 < start)
    (hg : Good u chain len receipts start lo i s) (hki : k ≤ i) (hik : i ≤ k + 19) :
    ∃ s' out, processUpdate u s (u.root (chain k)) = some (s', out) ∧ Good u chain len receipts start lo i s' ∧
      provenHeaders out = [] ∧ (start + 12 ≤ k → out = [.bundle (u.root (chain k))
        ((blocksBack chain (k - 12) (k + 1)).map fun b => (b, receipts b.number))]) := by
  unfold processUpdate
  rw [nonempty hg]
  obtain ⟨⟨s', h1, h2, h3⟩, h4⟩ := fill_follow hc (head := u.root (chain k)) (lo := lo) (by have := hg.base; omega)
    totalBufferCount k (s := s) (bundle := []) (by unfold totalBufferCount; omega)
    (Nat.le_trans hki (hg.blocks.2.2 i ⟨by have := hg.full; omega, Nat.le_refl _⟩)) rfl hg.blocks hg.cached
  have hg' : Good u chain len receipts start lo i s' := ⟨hg.base, hg.late, hg.full, by rw [h1]; exact hg.blocks, h2⟩
  rcases h3 with h3 | h3
  · refine ⟨s', [], by rw [h3]; rfl, hg', rfl, fun h6 => absurd h3 (h4 hki ?_ s')⟩
    have := hg.late
    have := hg.base
    unfold totalBufferCount
    omega
  · refine ⟨s', _, by rw [h3]; rfl, hg', rfl, fun h6 => ?_⟩
    rw [backFrom_eq hc totalBufferCount (k - 12) k (by unfold totalBufferCount; omega)]
    rfl

theorem period_of {p x : Nat} (h1 : 8192 * p ≤ x) (h2 : x < 8192 * (p + 1)) : firstSlotInPeriod x = p * 8192 := by
  unfold firstSlotInPeriod slotsPerPeriod
  have : x / 8192 = p := Nat.div_eq_of_lt_le (by omega) (by omega)
  rw [this]

theorem expected_period {p : Nat} (h : 8192 * (p + 1) < 2 ^ 64) :
    firstSlotInPeriod ((256 * (p + 1) + 2 ^ 64 - 1) % 2 ^ 64 * slotsPerEpoch % 2 ^ 64) = p * 8192 := by
  have e1 : (256 * (p + 1) + 2 ^ 64 - 1) % 2 ^ 64 = 256 * (p + 1) - 1 := by omega
  rw [e1]
  have e2 : (256 * (p + 1) - 1) * slotsPerEpoch % 2 ^ 64 = 8192 * p + 8160 := by unfold slotsPerEpoch; omega
  rw [e2]
  exact period_of (by omega) (by omega)

theorem epoch_slot {p : Nat} (h : 8192 * (p + 1) < 2 ^ 64) :
    256 * (p + 1) * slotsPerEpoch % 2 ^ 64 = 8192 * (p + 1) := by unfold slotsPerEpoch; omega

/-- A checkpoint at the end of period `p` with last block `f` at or before the first slot of the next period. -/
theorem final_ok (hc : BeaconChain u chain len) {start lo i f p : Nat} {s : State R} {state : Id} (hs : 0 < start)
    (hg : Good u chain len receipts start lo i s) (hlf : lo ≤ f) (hfi : f ≤ i) (hf : (chain f).slot ≤ 8192 * (p + 1))
    (hlo : 8192 * p ≤ (chain lo).slot) (hb : 8192 * (p + 1) < 2 ^ 64) :
    ∃ s', processFinal s (256 * (p + 1)) (u.root (chain f)) state = (s', [.headers state (blocksBack chain lo f)]) ∧
      s'.receipts = s.receipts ∧
      Holds u chain len s'.blocks fun k => f ≤ k ∧ k ≤ i ∧ 8192 * (p + 1) ≤ (chain k).slot := by
  have hlo' := hg.base
  obtain ⟨lo', rfl⟩ : ∃ l, lo = l + 1 := ⟨lo - 1, by omega⟩
  obtain ⟨f', rfl⟩ : ∃ l, f = l + 1 := ⟨f - 1, by omega⟩
  obtain ⟨m, h1, h2⟩ := walk_ok hc (first := p * 8192) (lo := lo') (f' - lo') s.blocks.length (m := s.blocks)
    (r := (chain (f' + 1)).parent) (acc := []) (Nat.le_refl _)
    (by have := hg.blocks.2.2 (f' + 1) ⟨hlf, hfi⟩; omega)
    (by rw [hc.parent, show lo' + 1 + (f' - lo') - 1 = f' by omega]) (by omega)
    (fun k h1 h2 => ⟨⟨h1, by omega⟩, period_of (Nat.le_trans hlo (slot_mono hc h1))
      (Nat.lt_of_lt_of_le (slot_lt hc (show k < f' + 1 by omega)) hf)⟩) hg.blocks
  rw [List.nil_append, show lo' + 1 + (f' - lo') = f' + 1 by omega] at h1
  rw [show lo' + 1 + (f' - lo') = f' + 1 by omega] at h2
  refine ⟨{ s with blocks := m.filter fun e => 8192 * (p + 1) ≤ e.2.slot }, ?_, rfl, ?_⟩
  · unfold processFinal
    rw [if_neg (by unfold slotsPerPeriod slotsPerEpoch; omega), holds_some hg.blocks ⟨hlf, hfi⟩]
    simp only
    rw [expected_period hb, h1, epoch_slot hb]
  · refine holds_congr (holds_filter hc h2 _) fun k => ?_
    constructor
    · rintro ⟨⟨⟨h3, h4⟩, h5⟩, h6⟩
      exact ⟨by omega, h4, h6⟩
    · rintro ⟨h3, h4, h5⟩
      exact ⟨⟨⟨by omega, h4⟩, by omega⟩, h5⟩

theorem good_final (hc : BeaconChain u chain len) {start lo i f p : Nat} {s : State R} {state : Id} (hs : 0 < start)
    (hg : Good u chain len receipts start lo i s) (hlf : lo ≤ f) (hfi : f + 31 ≤ i) (hf : (chain f).slot = 8192 * (p + 1))
    (hlo : 8192 * p ≤ (chain lo).slot) (hb : (chain f).slot < 2 ^ 64) :
    ∃ s', processFinal s (256 * (p + 1)) (u.root (chain f)) state = (s', [.headers state (blocksBack chain lo f)]) ∧
      Good u chain len receipts start f i s' := by
  obtain ⟨s', h1, h2, h3⟩ := final_ok hc hs hg hlf (by omega) (Nat.le_of_eq hf) hlo (hf ▸ hb) (state := state)
  have hg1 := hg.base
  refine ⟨s', h1, by omega, .inr hfi, by omega, holds_congr h3 fun k => ?_, ?_⟩
  · constructor
    · rintro ⟨h4, h5, _⟩
      exact ⟨h4, h5⟩
    · rintro ⟨h4, h5⟩
      exact ⟨h4, h5, by rw [← hf]; exact slot_mono hc h4⟩
  · rw [h2]
    have := hg.cached
    exact ⟨this.nodup, this.le, this.order, this.value, fun k hk => this.has k ⟨by omega, hk.2⟩⟩

theorem provenHeaders_append (a b : List (Effect R)) : provenHeaders (a ++ b) = provenHeaders a ++ provenHeaders b := by
  induction a with
  | nil => rfl
  | cons e a ih => cases e <;> simp [provenHeaders, ih]

theorem blocksBack_append {a b c : Nat} (h1 : a ≤ b) (h2 : b ≤ c) :
    (blocksBack chain a c).reverse = (blocksBack chain a b).reverse ++ (blocksBack chain b c).reverse := by
  unfold blocksBack
  rw [List.reverse_reverse, List.reverse_reverse, List.reverse_reverse]
  obtain ⟨x, rfl⟩ : ∃ x, b = a + x := ⟨b - a, by omega⟩
  obtain ⟨y, rfl⟩ : ∃ y, c = a + x + y := ⟨c - (a + x), by omega⟩
  rw [show a + x + y - a = x + y by omega, show a + x - a = x by omega, show a + x + y - (a + x) = y by omega,
    List.range_add, List.map_append, List.map_map]
  congr 1
  apply List.map_congr_left
  intro k _
  show chain (a + (x + k)) = chain (a + x + k)
  rw [Nat.add_assoc]

theorem run_snoc {s s1 s2 : State R} {es : List (Event R)} {e : Event R} {o1 o2 : List (Effect R)}
    (h1 : run u s es = some (s1, o1)) (h2 : step u s1 e = some (s2, o2)) :
    run u s (es ++ [e]) = some (s2, o1 ++ o2) := by
  rw [run_append, h1]
  simp only
  rw [run_cons, h2]
  simp [run]

theorem follows_good (hc : BeaconChain u chain len) {start lo i : Nat} {es : List (Event R)} (hs : 0 < start)
    (h : FollowsChain u chain len receipts start es lo i) :
    ∃ s out, run u init es = some (s, out) ∧ Good u chain len receipts start lo i s ∧
      provenHeaders out = (blocksBack chain start lo).reverse := by
  induction h with
  | start api hl ha =>
    refine ⟨_, [], rfl, good_start hc hl ha, ?_⟩
    unfold blocksBack
    rw [Nat.sub_self]
    rfl
  | head j api _ hij hji hl ha ih =>
    obtain ⟨s, out, h1, h2, h3⟩ := ih
    exact ⟨_, _, run_snoc h1 (e := .head _ api) rfl, good_head hc h2 hij hji hl ha, by rw [List.append_nil]; exact h3⟩
  | update k _ hki hik ih =>
    obtain ⟨s, out, h1, h2, h3⟩ := ih
    obtain ⟨s', o, h4, h5, h6, _⟩ := good_update hc hs h2 hki hik
    exact ⟨_, _, run_snoc h1 (e := .update _) h4, h5, by rw [provenHeaders_append, h6, List.append_nil]; exact h3⟩
  | other epoch block state _ he ih =>
    obtain ⟨s, out, h1, h2, h3⟩ := ih
    refine ⟨s, out ++ [], run_snoc h1 (e := .final epoch block state) ?_, h2, by rw [List.append_nil]; exact h3⟩
    show some (processFinal s epoch block state) = _
    unfold processFinal
    rw [if_pos (show epoch % (slotsPerPeriod / slotsPerEpoch) ≠ 0 from he)]
  | final f period state _ hlf hfi hf hlo hb ih =>
    obtain ⟨s, out, h1, h2, h3⟩ := ih
    obtain ⟨s', h4, h5⟩ := good_final hc hs h2 hlf hfi hf hlo hb (state := state)
    refine ⟨s', _, run_snoc h1 (e := .final _ _ state) (congrArg some h4), h5, ?_⟩
    rw [provenHeaders_append, h3, blocksBack_append h2.base hlf]
    simp [provenHeaders]

end follow
end Verif.Ephemeral
