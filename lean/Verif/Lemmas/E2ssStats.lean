import Verif.Props.E2ssStatsSpec
import Verif.Lemmas.E2ss

/-! # Lemmas about the check of state snapshots -/

namespace Verif.E2ss
open Verif.E2store hiding Header
open Verif.Props.Snapshot

/-! ## Increasing lists -/

def inc : Nat → List Nat → Prop
  | _, [] => True
  | a, x :: l => a < x ∧ inc x l

def endOf : Nat → List Nat → Nat
  | a, [] => a
  | _, x :: l => endOf x l

theorem inc_append (l m : List Nat) : ∀ a, inc a (l ++ m) ↔ inc a l ∧ inc (endOf a l) m := by
  induction l with
  | nil => intro a; simp [inc, endOf]
  | cons x l ih => intro a; simp [inc, endOf, ih, and_assoc]

theorem inc_iff (l : List Nat) : ∀ a, inc a l ↔ (∀ x ∈ l, a < x) ∧ l.Pairwise (· < ·) := by
  induction l with
  | nil => intro a; simp [inc]
  | cons x l ih =>
    intro a
    simp only [inc, ih, List.mem_cons, forall_eq_or_imp, List.pairwise_cons]
    constructor
    · rintro ⟨h1, h2, h3⟩
      exact ⟨⟨h1, fun y hy => Nat.lt_trans h1 (h2 y hy)⟩, h2, h3⟩
    · rintro ⟨⟨h1, _⟩, h2, h3⟩
      exact ⟨h1, h2, h3⟩

theorem inc_zero (l : List Nat) : inc 0 l ↔ Increasing l := inc_iff l 0

theorem checkItems_iff (l : List StorageItem) : ∀ (last last' : Id), checkItems last l = .ok last' ↔
    inc last.toNat (l.map fun x => x.index.toNat) ∧ last'.toNat = endOf last.toNat (l.map fun x => x.index.toNat) := by
  induction l with
  | nil =>
    intro last last'
    simp only [checkItems, List.map_nil, inc, endOf, true_and, Res.ok.injEq]
    constructor
    · rintro rfl; rfl
    · intro h; exact (BitVec.eq_of_toNat_eq h).symm
  | cons i l ih =>
    intro last last'
    simp only [checkItems, List.map_cons, inc, endOf]
    split
    · rename_i h
      rw [ih]
      simp [show last.toNat < i.index.toNat from h]
    · rename_i h
      simp [show ¬ last.toNat < i.index.toNat from h]

theorem checkItems_end {l : List StorageItem} {last : Id} (h : inc last.toNat (l.map fun x => x.index.toNat)) :
    ∃ last', checkItems last l = .ok last' ∧ last'.toNat = endOf last.toNat (l.map fun x => x.index.toNat) := by
  induction l generalizing last with
  | nil => exact ⟨last, rfl, rfl⟩
  | cons i l ih =>
    simp only [List.map_cons, inc] at h
    obtain ⟨last', h1, h2⟩ := ih h.2
    exact ⟨last', by simp only [checkItems]; rw [if_pos h.1]; exact h1, h2⟩

/-! ## Parts -/

theorem statParts_sound (c : Codecs) (count : Nat) : ∀ (n index : Nat) (last : Id) (st st' : Stats) (r r' : Reader),
    r.pending.toNat = n → index + n = count → statParts c count n index last st r = .ok (st', r') →
    ∃ ps, Parts c n r.rem ps r'.rem ∧ r'.pending = 0 ∧
      (∀ i p, ps[i]? = some p → i + 1 < ps.length → p.length = maxItems) ∧
      inc last.toNat (ps.flatten.map fun x => x.index.toNat) ∧
      st' = { st with storageEntries := st.storageEntries + ps.length, storageItems := st.storageItems + ps.flatten.length } := by
  intro n
  induction n with
  | zero =>
    intro index last st st' r r' hp _ h
    cases h
    refine ⟨[], .done _, ?_, by simp, trivial, by simp⟩
    exact UInt32.toNat_inj.mp hp
  | succ n ih =>
    intro index last st st' r r' hp hc h
    have hp0 : r.pending ≠ 0 := by intro e; rw [e] at hp; simp at hp
    unfold statParts at h
    split at h
    · rename_i l r1 hn
      obtain ⟨raw, l', h1, h2, h3, h4, h5⟩ := (next_storage_iff c r hp0 _).1 hn
      simp only [Option.some.injEq, Item.storage.injEq] at h4
      subst h4
      simp only at h3 h5 h
      have hp1 : r1.pending.toNat = n := by
        have := u32_pred hp0
        rw [h5]; omega
      split at h
      · cases h
      · rename_i hfull
        cases hk : checkItems last l with
        | err => rw [hk] at h; cases h
        | panic => rw [hk] at h; cases h
        | ok last1 =>
          rw [hk] at h
          obtain ⟨hi1, hi2⟩ := (checkItems_iff l last last1).1 hk
          obtain ⟨ps, g1, g2, g3, g4, g5⟩ := ih (index + 1) last1 _ st' r1 r' hp1 (by omega) h
          have hlen := parts_length g1
          refine ⟨l :: ps, ?_, g2, ?_, ?_, ?_⟩
          · rw [h3]; exact .more h1 h2 g1
          · intro i p hip hi
            cases i with
            | zero =>
              simp only [List.getElem?_cons_zero, Option.some.injEq] at hip
              subst hip
              simp only [List.length_cons] at hi
              exact Classical.byContradiction fun hne => hfull ⟨by omega, hne⟩
            | succ i =>
              rw [List.getElem?_cons_succ] at hip
              simp only [List.length_cons] at hi
              exact g3 i p hip (by omega)
          · rw [List.flatten_cons, List.map_append, inc_append]
            exact ⟨hi1, by rw [← hi2]; exact g4⟩
          · rw [g5]
            simp only [List.length_cons, List.flatten_cons, List.length_append, Stats.mk.injEq, true_and]
            omega
    · cases h
    · cases h
    · cases h

theorem statParts_complete (c : Codecs) (count : Nat) {n : Nat} {b rest : Bytes} {ps : List (List StorageItem)}
    (hp : Parts c n b ps rest) : ∀ (index : Nat) (last : Id) (st : Stats) (p : UInt32), p.toNat = n → index + n = count →
    (∀ i q, ps[i]? = some q → i + 1 < ps.length → q.length = maxItems) →
    inc last.toNat (ps.flatten.map fun x => x.index.toNat) →
    statParts c count n index last st ⟨b, p⟩ = .ok ({ st with
      storageEntries := st.storageEntries + ps.length, storageItems := st.storageItems + ps.flatten.length }, ⟨rest, 0⟩) := by
  induction hp with
  | done b =>
    intro index last st p hp _ _ _
    have : p = 0 := UInt32.toNat_inj.mp hp
    subst this
    simp [statParts]
  | @more n raw b rest l ls h1 h2 h3 ih =>
    intro index last st p hp hc hfull hinc
    have hp0 : p ≠ 0 := by intro e; rw [e] at hp; simp at hp
    have hn : Reader.next c ⟨recordBytes (0x0900, raw) ++ b, p⟩ = .ok (some (.storage l), ⟨b, p - 1⟩) :=
      (next_storage_iff c ⟨_, p⟩ hp0 (some (.storage l), ⟨b, p - 1⟩)).2 ⟨raw, l, h1, h2, rfl, rfl, rfl⟩
    have hlen := parts_length h3
    rw [List.flatten_cons, List.map_append, inc_append] at hinc
    obtain ⟨last', hk, he⟩ := checkItems_end hinc.1
    unfold statParts
    rw [hn]
    simp only
    rw [if_neg (by
      rintro ⟨ha, hb⟩
      exact hb (hfull 0 l rfl (by simp only [List.length_cons]; omega))), hk]
    simp only [Res.bind]
    have hp1 : (p - 1).toNat = n := by have := u32_pred hp0; omega
    rw [ih (index + 1) last' _ (p - 1) hp1 (by omega) (fun i q hq hi => hfull (i + 1) q (by rw [List.getElem?_cons_succ]; exact hq)
      (by simp only [List.length_cons]; omega)) (by rw [he]; exact hinc.2)]
    simp only [List.length_cons, List.flatten_cons, List.length_append, Res.ok.injEq, Prod.mk.injEq, Stats.mk.injEq, true_and, and_true]
    omega

/-! ## Accounts -/

/-- Counts on top of others. -/
def Stats.plus (a b : Stats) : Stats :=
  ⟨a.accounts + b.accounts, a.bytecodes + b.bytecodes, a.storageEntries + b.storageEntries, a.storageItems + b.storageItems⟩

theorem counts_cons (g : Group) (gs : List Group) (st : Stats) :
    st.plus (counts (g :: gs)) = Stats.plus ⟨st.accounts + 1, st.bytecodes + (if g.account.bytecode = [] then 0 else 1),
      st.storageEntries + g.parts.length, st.storageItems + g.parts.flatten.length⟩ (counts gs) := by
  simp only [Stats.plus, counts, List.length_cons, List.map_cons, List.sum_cons, Group.slots, Stats.mk.injEq]
  refine ⟨by omega, ?_, by omega, by omega⟩
  by_cases h : g.account.bytecode = []
  · simp [List.filter_cons, h]
  · simp [List.filter_cons, h]; omega

/-- `Orderly` after a hash. -/
structure From (K : Bytes → Id) (last : Nat) (gs : List Group) : Prop where
  accounts : inc last (gs.map fun g => g.account.addressHash.toNat)
  code : ∀ g ∈ gs, K g.account.bytecode = g.account.state.codeHash
  full : ∀ g ∈ gs, ∀ i p, g.parts[i]? = some p → i + 1 < g.parts.length → p.length = maxItems
  slots : ∀ g ∈ gs, inc 0 (g.slots.map fun x => x.index.toNat)

theorem from_zero (K : Bytes → Id) (gs : List Group) : From K 0 gs ↔ Orderly K gs := by
  constructor
  · rintro ⟨h1, h2, h3, h4⟩
    exact ⟨(inc_zero _).1 h1, h2, h3, fun g hg => (inc_zero _).1 (h4 g hg)⟩
  · rintro ⟨h1, h2, h3, h4⟩
    exact ⟨(inc_zero _).2 h1, h2, h3, fun g hg => (inc_zero _).2 (h4 g hg)⟩

theorem statLoop_sound (c : Codecs) (K : Bytes → Id) : ∀ (fuel : Nat) (last : Id) (st st' : Stats) (r : Reader), r.pending = 0 →
    statLoop c K fuel last st r = .ok st' → ∃ gs, Groups c r.rem gs ∧ From K last.toNat gs ∧ st' = st.plus (counts gs) := by
  intro fuel
  induction fuel with
  | zero => intro last st st' r _ h; cases h
  | succ fuel ih =>
    intro last st st' r hp h
    unfold statLoop at h
    split at h
    · cases h
    · cases h
    · rename_i r1 hn
      cases h
      obtain ⟨_, _, hcut⟩ := (next_end_iff c r r1).1 hn
      exact ⟨[], .done hcut, ⟨trivial, by simp, by simp, by simp⟩, by simp [Stats.plus, counts]⟩
    · cases h
    · rename_i a r1 hn
      obtain ⟨raw, h1, h2, h3, h4⟩ := (next_account_iff c r hp a r1).1 hn
      simp only at h
      split at h
      · cases h
      · rename_i hlt
        have hlt : last.toNat < a.addressHash.toNat := by omega
        split at h
        · cases h
        · rename_i hk
          have hk : K a.bytecode = a.state.codeHash := Classical.not_not.mp hk
          generalize hst : (if a.bytecode.isEmpty = true then { st with accounts := st.accounts + 1 } else
            ({ st with accounts := st.accounts + 1, bytecodes := st.bytecodes + 1 } : Stats)) = st1 at h
          cases hs : statParts c a.storageCount.toNat a.storageCount.toNat 0 0 st1 r1 with
          | err => rw [hs] at h; cases h
          | panic => rw [hs] at h; cases h
          | ok x =>
            obtain ⟨st2, r2⟩ := x
            rw [hs] at h
            obtain ⟨ps, g1, g2, g3, g4, g5⟩ := statParts_sound c _ _ 0 0 st1 st2 r1 r2 (by rw [h4]) (by omega) hs
            obtain ⟨gs, k1, k2, k3⟩ := ih a.addressHash st2 st' r2 g2 h
            refine ⟨⟨a, ps⟩ :: gs, ?_, ?_, ?_⟩
            · rw [h3]; exact .more h1 h2 g1 k1
            · refine ⟨⟨hlt, k2.accounts⟩, ?_, ?_, ?_⟩
              · intro g hg
                rcases List.mem_cons.1 hg with rfl | hg
                · exact hk
                · exact k2.code g hg
              · intro g hg
                rcases List.mem_cons.1 hg with rfl | hg
                · exact g3
                · exact k2.full g hg
              · intro g hg
                rcases List.mem_cons.1 hg with rfl | hg
                · exact g4
                · exact k2.slots g hg
            · rw [k3, g5, counts_cons, ← hst]
              by_cases hb : a.bytecode = []
              · simp [hb]
              · simp [hb]

theorem parts_shorter {c : Codecs} {n : Nat} {b rest : Bytes} {ps : List (List StorageItem)} (h : Parts c n b ps rest) :
    rest.length ≤ b.length := by
  induction h with
  | done => exact Nat.le_refl _
  | more _ _ _ ih => rw [List.length_append]; omega

theorem statLoop_complete (c : Codecs) (K : Bytes → Id) {b : Bytes} {gs : List Group} (hg : Groups c b gs) :
    ∀ (fuel : Nat) (last : Id) (st : Stats), b.length < fuel → From K last.toNat gs →
    statLoop c K fuel last st ⟨b, 0⟩ = .ok (st.plus (counts gs)) := by
  induction hg with
  | @done b hcut =>
    intro fuel last st hf _
    cases fuel with
    | zero => omega
    | succ fuel =>
      unfold statLoop
      rw [(next_end_iff c ⟨b, 0⟩ ⟨b, 0⟩).2 ⟨rfl, rfl, hcut⟩]
      simp [Stats.plus, counts]
  | @more raw b rest a ps gs h1 h2 h3 h4 ih =>
    intro fuel last st hf ho
    cases fuel with
    | zero => omega
    | succ fuel =>
      have hn : Reader.next c ⟨recordBytes (0x0800, raw) ++ b, 0⟩ = .ok (some (.account a), ⟨b, a.storageCount⟩) :=
        (next_account_iff c ⟨_, 0⟩ rfl a ⟨b, a.storageCount⟩).2 ⟨raw, h1, h2, rfl, rfl⟩
      have hsh := next_shorter c _ _ _ hn
      simp only at hsh
      have hps := parts_shorter h3
      obtain ⟨o1, o2, o3, o4⟩ := ho
      simp only [List.map_cons, inc] at o1
      unfold statLoop
      rw [hn]
      simp only
      rw [if_neg (by omega), if_neg (fun h => h (o2 ⟨a, ps⟩ List.mem_cons_self))]
      rw [statParts_complete c _ h3 0 0 _ a.storageCount rfl (by omega) (o3 ⟨a, ps⟩ List.mem_cons_self)
        (o4 ⟨a, ps⟩ List.mem_cons_self)]
      simp only [Res.bind]
      rw [ih fuel a.addressHash _ (by omega) ⟨o1.2, fun g hg => o2 g (List.mem_cons_of_mem _ hg),
        fun g hg => o3 g (List.mem_cons_of_mem _ hg), fun g hg => o4 g (List.mem_cons_of_mem _ hg)⟩, counts_cons]
      congr 2
      by_cases hb : a.bytecode = []
      · simp [hb]
      · simp [hb]

theorem stats_iff (c : Codecs) (K : Bytes → Id) (file : Bytes) (st : Stats) :
    stats c K file = .ok st ↔ ∃ h gs, Says c file h gs ∧ Orderly K gs ∧ st = counts gs := by
  have hz : ∀ gs, Stats.zero.plus (counts gs) = counts gs := by intro gs; simp [Stats.plus, Stats.zero]
  unfold stats
  constructor
  · intro h
    cases ho : Reader.open c file with
    | err => rw [ho] at h; cases h
    | panic => rw [ho] at h; cases h
    | ok x =>
      obtain ⟨hd, r⟩ := x
      rw [ho] at h
      obtain ⟨h1, raw, h2, h3, h4⟩ := (open_iff c file hd r).1 ho
      obtain ⟨gs, g1, g2, g3⟩ := statLoop_sound c K _ 0 Stats.zero st r h1 h
      exact ⟨hd, gs, ⟨raw, r.rem, h2, h3, g1, h4⟩, (from_zero K gs).1 g2, by rw [g3, hz]⟩
  · rintro ⟨hd, gs, ⟨raw, rest, h2, h3, g1, h4⟩, ho, rfl⟩
    have := (open_iff c file hd ⟨rest, 0⟩).2 ⟨rfl, raw, h2, h3, h4⟩
    rw [this]
    show statLoop c K (rest.length + 1) 0 Stats.zero ⟨rest, 0⟩ = _
    rw [statLoop_complete c K g1 _ 0 Stats.zero (Nat.lt_succ_self _) ((from_zero K gs).2 ho), hz]

/-- Only a missing version or header is an error; everything else aborts. -/
theorem statParts_err (c : Codecs) (count : Nat) : ∀ (n index : Nat) (last : Id) (st : Stats) (r : Reader), r.pending.toNat = n →
    statParts c count n index last st r ≠ .err := by
  intro n
  induction n with
  | zero => intro index last st r _ h; cases h
  | succ n ih =>
    intro index last st r hp h
    have hp0 : r.pending ≠ 0 := by intro e; rw [e] at hp; simp at hp
    unfold statParts at h
    split at h
    · rename_i l r1 hn
      obtain ⟨raw, l', h1, h2, h3, h4, h5⟩ := (next_storage_iff c r hp0 _).1 hn
      simp only at h h5
      split at h
      · cases h
      · cases hk : checkItems last l with
        | err =>
          have : ∀ (l : List StorageItem) (last : Id), checkItems last l ≠ .err := by
            intro l
            induction l with
            | nil => intro last h; cases h
            | cons i l ih =>
              intro last h
              unfold checkItems at h
              split at h
              · exact ih _ h
              · cases h
          exact this l last hk
        | panic => rw [hk] at h; cases h
        | ok last1 =>
          rw [hk] at h
          exact ih (index + 1) last1 _ r1 (by have := u32_pred hp0; rw [h5]; omega) h
    · rename_i x hx hn
      obtain ⟨raw, l', h1, h2, h3, h4, h5⟩ := (next_storage_iff c r hp0 _).1 hn
      obtain ⟨o, r1⟩ := x
      simp only at h4
      subst h4
      exact hx l' r1 rfl
    · rename_i hn; exact next_no_err c r hn
    · cases h

theorem statLoop_err (c : Codecs) (K : Bytes → Id) : ∀ (fuel : Nat) (last : Id) (st : Stats) (r : Reader), r.pending = 0 →
    statLoop c K fuel last st r ≠ .err := by
  intro fuel
  induction fuel with
  | zero => intro last st r _ h; cases h
  | succ fuel ih =>
    intro last st r hp h
    unfold statLoop at h
    split at h
    · rename_i hn; exact next_no_err c r hn
    · cases h
    · cases h
    · rename_i l r1 hn; exact next_zero_storage c r r1 hp l hn
    · rename_i a r1 hn
      obtain ⟨raw, h1, h2, h3, h4⟩ := (next_account_iff c r hp a r1).1 hn
      simp only at h
      split at h
      · cases h
      · split at h
        · cases h
        · generalize (if a.bytecode.isEmpty = true then { st with accounts := st.accounts + 1 } else
            ({ st with accounts := st.accounts + 1, bytecodes := st.bytecodes + 1 } : Stats)) = st1 at h
          cases hs : statParts c a.storageCount.toNat a.storageCount.toNat 0 0 st1 r1 with
          | err => exact statParts_err c _ _ 0 0 st1 r1 (by rw [h4]) hs
          | panic => rw [hs] at h; cases h
          | ok x =>
            obtain ⟨st2, r2⟩ := x
            rw [hs] at h
            obtain ⟨ps, g1, g2, _⟩ := statParts_sound c _ _ 0 0 st1 st2 r1 r2 (by rw [h4]) (by omega) hs
            exact ih a.addressHash st2 r2 g2 h

end Verif.E2ss
