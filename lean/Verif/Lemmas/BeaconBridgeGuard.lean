import Verif.Model.BeaconBridge

/-! # Lemmas: two abstract machines behind the tasks of the beacon bridge -/

namespace Verif.BeaconBridge

/-! ## Ask, mark, download, store -/

inductive G where
  | out | check | ask | compare (x : Id) | mark (x : Id) | fetch (x : Id) | store (x : Id) | clear | failed

def G.past : G → Bool
  | .out | .check => false
  | _ => true
def G.asking : G → Bool
  | .ask | .compare _ | .mark _ => true
  | _ => false
def G.late : G → Bool
  | .fetch _ | .store _ | .clear => true
  | _ => false

/-- A step: the point, the flag and the root before and after, and what is announced. `reset`: an error after
the mark clears the flag. -/
inductive GStep (reset : Bool) : G → Bool → Id → G → Bool → Id → List Id → Prop
  | idle b r : GStep reset .out b r .out b r []
  | busy r : GStep reset .check true r .out true r []
  | free r : GStep reset .check false r .ask false r []
  | askFail b r : GStep reset .ask b r .failed b r []
  | askDrop b r : GStep reset .ask b r .out b r []
  | asked b r x : GStep reset .ask b r (.compare x) b r []
  | same b r : GStep reset (.compare r) b r .out b r []
  | differs b r x : x ≠ r → GStep reset (.compare x) b r (.mark x) b r []
  | mark b r x : GStep reset (.mark x) b r (.fetch x) true r []
  | fetchFail b r x : GStep reset (.fetch x) b r .failed b r []
  | fetchDrop b r x : reset = false → GStep reset (.fetch x) b r .out b r []
  | fetched b r x : GStep reset (.fetch x) b r (.store x) b r [x]
  | store b r x : GStep reset (.store x) b r .clear b x []
  | clear b r : GStep reset .clear b r .out false r []
  | failed b r : GStep reset .failed b r .out false r []

structure GInv (reset : Bool) (f : Nat → G) (busy : Bool) (root : Id) (log : List Id) : Prop where
  past_unique : ∀ i j, (f i).past = true → (f j).past = true → i = j
  check_unique : ∀ i j, f i = .check → f j = .check → i = j
  check_past : ∀ i j, f i = .check → (f j).past = true → busy = true
  asking_free : ∀ i, (f i).asking = true → busy = false
  late_busy : ∀ i, (f i).late = true → busy = true
  held : reset = true → busy = true → ∃ i, (f i).past = true
  pending : ∀ i x, (f i = .mark x ∨ f i = .fetch x) → x ≠ root
  storing : ∀ i x, f i = .store x → log.getLast? = some x
  stored : (∀ i x, f i ≠ .store x) → root = log.getLast?.getD 0
  chain : ∀ pre a b post, log = pre ++ a :: b :: post → a ≠ b

theorem GInv.init (reset : Bool) : GInv reset (fun _ => .out) false 0 [] := by
  constructor <;> simp [G.past, G.asking, G.late]

theorem GInv.spawn {reset f busy root log} (h : GInv reset f busy root log) (n : Nat) (hn : f n = .out)
    (hf : ∀ i, f i ≠ .check ∧ (f i).asking = false ∧ f i ≠ .failed) :
    GInv reset (fun j => if j = n then .check else f j) busy root log := by
  have hp : ∀ i, (f i).past = true → (f i).late = true := by
    intro i hi
    have := hf i
    revert hi this
    cases f i <;> simp [G.past, G.late, G.asking]
  obtain ⟨h1, h2, h3, h4, h5, h6, h7, h8, h9, h10⟩ := h
  constructor
  · intro i j; grind [G.past]
  · intro i j; grind
  · intro i j; grind [G.past]
  · intro i; grind [G.asking]
  · intro i; grind [G.late]
  · intro hr hb
    obtain ⟨i, hi⟩ := h6 hr hb
    refine ⟨i, ?_⟩
    grind [G.past]
  · intro i x; grind
  · intro i x; grind
  · intro hs
    apply h9
    intro i x
    have := hs i x
    grind
  · exact h10

theorem chain_snoc {α} {l : List α} {x : α} (h : ∀ pre a b post, l = pre ++ a :: b :: post → a ≠ b)
    (hx : ∀ y, l.getLast? = some y → y ≠ x) : ∀ pre a b post, l ++ [x] = pre ++ a :: b :: post → a ≠ b := by
  intro pre a b post he
  rcases List.eq_nil_or_concat post with hp | ⟨post', z, hp⟩
  · subst hp
    have : l ++ [x] = (pre ++ [a]) ++ [b] := by simpa using he
    obtain ⟨h1, h2⟩ := List.append_inj' this rfl
    cases h2
    exact hx a (by simp [h1])
  · subst hp
    have : l ++ [x] = (pre ++ a :: b :: post') ++ [z] := by simpa using he
    obtain ⟨h1, _⟩ := List.append_inj' this rfl
    exact h pre a b post' h1

theorem GInv.step {reset f busy root log} (h : GInv reset f busy root log) (i : Nat) {g' busy' root' out}
    (hs : GStep reset (f i) busy root g' busy' root' out) :
    GInv reset (fun j => if j = i then g' else f j) busy' root' (log ++ out) := by
  obtain ⟨h1, h2, h3, h4, h5, h6, h7, h8, h9, h10⟩ := h
  generalize hg : f i = g at hs
  have hi1 := h1 i
  have hi3 := h3 i
  have hi3' := fun j => h3 j i
  have hi4 := h4 i
  have hi5 := h5 i
  have hi7 := h7 i
  have hi8 := h8 i
  cases hs
  all_goals simp only [hg, G.past, G.asking, G.late, forall_const, Bool.false_eq_true,
    false_implies, reduceCtorEq, false_or, or_false] at hi1 hi3 hi3' hi4 hi5 hi7 hi8
  all_goals constructor
  all_goals first
    | (intro a b; grind [G.past, G.asking, G.late])
    | (intro a; grind [G.past, G.asking, G.late])
    | skip
  next x =>
    refine chain_snoc h10 fun y hy => ?_
    have := h9 fun j z hj => by
      have := hi1 j (by rw [hj])
      subst this
      rw [hj] at hg
      cases hg
    rw [hy] at this
    exact fun he => hi7 x rfl (by rw [← he, this]; rfl)

/-! ## Compare with the last, announce, store -/

inductive V where
  | out | start | ready (p : UInt64) | store (p : UInt64)

def V.live : V → Bool
  | .out => false
  | _ => true

inductive VStep : V → UInt64 → V → UInt64 → List UInt64 → Prop
  | idle s : VStep .out s .out s []
  | wait s : VStep .start s .start s []
  | drop s : VStep .start s .out s []
  | dropReady p s : VStep (.ready p) s .out s []
  | newer p s : s < p → VStep .start s (.ready p) s []
  | announce p s : VStep (.ready p) s (.store p) s [p]
  | announceNewer p s : s < p → VStep .start s (.store p) s [p]
  | store p s : VStep (.store p) s .out p []

structure VInv (f : Nat → V) (last : UInt64) (log : List UInt64) : Prop where
  live_unique : ∀ i j, (f i).live = true → (f j).live = true → i = j
  ready : ∀ i p, f i = .ready p → last < p
  storing : ∀ i p, f i = .store p → log.getLast? = some p ∧ ∀ a ∈ log, a ≤ p
  stored : (∀ i p, f i ≠ .store p) → last = log.getLast?.getD 0 ∧ ∀ a ∈ log, a ≤ last
  sorted : log.Pairwise (· < ·)

theorem VInv.init : VInv (fun _ => .out) 0 [] := by
  constructor <;> simp [V.live]

theorem VInv.spawn {f last log} (h : VInv f last log) (n : Nat) (hn : f n = .out)
    (hf : ∀ i, (f i).live = false) : VInv (fun j => if j = n then .start else f j) last log := by
  obtain ⟨h1, h2, h3, h4, h5⟩ := h
  constructor
  · intro i j; grind [V.live]
  · intro i p; grind
  · intro i p; grind
  · intro hs
    apply h4
    intro i p
    have := hs i p
    grind
  · exact h5

theorem VInv.step {f last log} (h : VInv f last log) (i : Nat) {g' last' out}
    (hs : VStep (f i) last g' last' out) : VInv (fun j => if j = i then g' else f j) last' (log ++ out) := by
  obtain ⟨h1, h2, h3, h4, h5⟩ := h
  generalize hg : f i = g at hs
  have hi1 := h1 i
  have hi2 := h2 i
  have hi3 := h3 i
  have hno : g ≠ .out → (∀ p, g ≠ .store p) → ∀ j p, f j ≠ .store p := by
    intro h0 hp j p hj
    have : i = j := hi1 j (by rw [hg]; revert h0; cases g <;> simp [V.live]) (by rw [hj]; rfl)
    subst this
    exact hp p (hg ▸ hj)
  cases hs
  all_goals simp only [hg, V.live, forall_const, Bool.false_eq_true, false_implies, reduceCtorEq] at hi1 hi2 hi3
  all_goals constructor
  all_goals first
    | (intro a b; grind [V.live])
    | (intro a; grind [V.live])
    | skip
  all_goals first
    | (rw [List.append_nil]; exact h5)
    | skip
  · refine List.pairwise_append.mpr ⟨h5, List.pairwise_singleton _ _, fun a ha b hb => ?_⟩
    rw [List.mem_singleton.mp hb]
    have hn : ∀ j p, f j ≠ .store p := by apply hno <;> nofun
    exact UInt64.lt_of_le_of_lt ((h4 hn).2 a ha) (hi2 _ rfl)
  · next hlt =>
    refine List.pairwise_append.mpr ⟨h5, List.pairwise_singleton _ _, fun a ha b hb => ?_⟩
    rw [List.mem_singleton.mp hb]
    have hn : ∀ j p, f j ≠ .store p := by apply hno <;> nofun
    exact UInt64.lt_of_le_of_lt ((h4 hn).2 a ha) hlt

end Verif.BeaconBridge
