import Verif.Props.BridgeCliSpec
import Verif.Lemmas.NodeConfig
import Verif.Lemmas.HeadGenNames

namespace Verif.BridgeCli
open Verif.NodeConfig (Str split parseSubnetwork split_append split_none split_ne_nil)
open Verif.HeadGen (parseU64 parseDigits)
open Verif.Capacity (Subnetwork)
open Verif.TrieWalker (BridgeId)
open Verif.E2store (Res)
open Verif.Props.BridgeSpec
open Verif.Props.StartSpec (nameOf networkName)

theorem parseDigits_iff (ds : List Char) (acc n : Nat) : parseDigits ds acc = some n ↔
    (∀ c ∈ ds, '0' ≤ c ∧ c ≤ '9') ∧ n = ds.foldl (fun a c => 10 * a + (c.toNat - '0'.toNat)) acc := by
  induction ds generalizing acc with
  | nil => simp [parseDigits, eq_comm]
  | cons c cs ih =>
    rw [parseDigits]
    by_cases hc : '0' ≤ c ∧ c ≤ '9'
    · rw [if_pos hc, ih]
      simp only [List.mem_cons, forall_eq_or_imp, List.foldl_cons]
      rw [show ('0').toNat = 48 from rfl, Nat.mul_comm acc 10]
      exact ⟨fun h => ⟨⟨hc, h.1⟩, h.2⟩, fun h => ⟨h.1.2, h.2⟩⟩
    · rw [if_neg hc]
      simp only [reduceCtorEq, false_iff]
      exact fun h => hc (h.1 c (by simp))

theorem parseU64_iff (t : List Char) (n : Nat) : parseU64 t = some n ↔ Numeral t n := by
  have key : ∀ ds : List Char, (if ds = [] then none else (parseDigits ds 0).filter fun n => decide (n < 2 ^ 64)) = some n ↔
      ds ≠ [] ∧ (∀ c ∈ ds, '0' ≤ c ∧ c ≤ '9') ∧
        n = ds.foldl (fun a c => 10 * a + (c.toNat - '0'.toNat)) 0 ∧ n < 2 ^ 64 := by
    intro ds
    by_cases hd : ds = []
    · simp [hd]
    · rw [if_neg hd]
      constructor
      · intro h
        rw [Option.filter_eq_some_iff] at h
        have := (parseDigits_iff ds 0 n).1 h.1
        exact ⟨hd, this.1, this.2, by simpa using h.2⟩
      · rintro ⟨_, h1, h2, h3⟩
        rw [Option.filter_eq_some_iff]
        exact ⟨(parseDigits_iff ds 0 n).2 ⟨h1, h2⟩, by simpa using h3⟩
  unfold parseU64
  simp only
  rw [key]
  unfold Numeral
  constructor
  · rintro ⟨h1, h2, h3, h4⟩
    split at h1
    · next hp =>
      cases t with
      | nil => cases hp
      | cons c cs =>
        simp only [List.head?_cons, Option.some.injEq] at hp
        subst hp
        simp only [List.head?_cons, if_true, List.tail_cons] at h1 h2 h3
        exact ⟨cs, h1, h2, h3, h4, Or.inr rfl⟩
    · next hp =>
      rw [if_neg hp] at h2 h3
      exact ⟨t, h1, h2, h3, h4, Or.inl rfl⟩
  · rintro ⟨ds, h1, h2, h3, h4, rfl | rfl⟩
    · have hp : t.head? ≠ some '+' := fun hn => absurd (h2 '+' (List.mem_of_mem_head? hn)) (by decide)
      rw [if_neg hp]
      exact ⟨h1, h2, h3, h4⟩
    · simp only [List.head?_cons, if_true, List.tail_cons]
      exact ⟨h1, h2, h3, h4⟩

theorem numeral_decimal (n : Nat) (h : n < 2 ^ 64) : Numeral (HeadGen.decimal n) n := by
  obtain ⟨h1, h2, h3, _, _⟩ := Props.decimal_spec n
  have hne : HeadGen.decimal n ≠ [] := fun hn => by rw [hn] at h3; simp at h3
  rw [← parseU64_iff]
  unfold parseU64
  have hp : (HeadGen.decimal n).head? ≠ some '+' := fun hn => absurd (h1 '+' (List.mem_of_mem_head? hn)) (by decide)
  simp only [if_neg hp, if_neg hne, Props.parseDigits_value _ 0 h1]
  have hv : List.foldl (fun a c => a * 10 + (c.toNat - 48)) 0 (HeadGen.decimal n) = n := h2
  rw [hv]
  simp [Option.filter, h]

theorem numeral_not_mem {t : List Char} {n : Nat} (h : Numeral t n) (c : Char) (hc : ¬ ('0' ≤ c ∧ c ≤ '9'))
    (hp : c ≠ '+') : c ∉ t := by
  obtain ⟨ds, _, hd, _, _, rfl | rfl⟩ := h
  · exact fun hm => hc (hd c hm)
  · intro hm
    rcases List.mem_cons.1 hm with h | h
    · exact hp h
    · exact hc (hd c h)

theorem numeral_dash {t : List Char} {n : Nat} (h : Numeral t n) : '-' ∉ t :=
  numeral_not_mem h '-' (by decide) (by decide)

theorem numeral_slash {t : List Char} {n : Nat} (h : Numeral t n) : '/' ∉ t :=
  numeral_not_mem h '/' (by decide) (by decide)

theorem numeral_ne_nil {t : List Char} {n : Nat} (h : Numeral t n) : t ≠ [] := by
  obtain ⟨ds, hne, _, _, _, rfl | rfl⟩ := h
  · exact hne
  · simp

/-! ## Splitting -/

theorem between_split (c : Char) (s : Str) : between c (split c s) = s := by
  induction s with
  | nil => rfl
  | cons x xs ih =>
    unfold split
    split
    · next h =>
      subst h
      cases hs : split x xs with
      | nil => exact absurd hs (split_ne_nil _ _)
      | cons p ps => rw [hs] at ih; rw [between, ih]; rfl
    · cases hs : split c xs with
      | nil => exact absurd hs (split_ne_nil _ _)
      | cons p ps =>
        rw [hs] at ih
        simp only
        cases ps with
        | nil => rw [between] at ih ⊢; rw [ih]
        | cons q qs => rw [between] at ih ⊢; rw [← ih]; rfl

theorem split_between (c : Char) : ∀ ps : List Str, ps ≠ [] → (∀ p ∈ ps, c ∉ p) → split c (between c ps) = ps
  | [], h, _ => absurd rfl h
  | [p], _, hp => by rw [between]; exact split_none _ _ (hp p (by simp))
  | p :: q :: rest, _, hp => by
    rw [between, split_append _ _ (hp p (by simp)),
      split_between c (q :: rest) (by simp) (fun x hx => hp x (by simp [hx]))]

theorem split_pair (c : Char) (s a b : Str) (h : split c s = [a, b]) : s = a ++ c :: b := by
  have := between_split c s
  rw [h] at this
  exact this.symm

theorem cutColon_iff (s a b : Str) : cutColon s = some (a, b) ↔ ':' ∉ a ∧ s = a ++ ':' :: b := by
  induction s generalizing a with
  | nil => simp [cutColon]
  | cons c cs ih =>
    rw [cutColon]
    by_cases hc : c = ':'
    · subst hc
      rw [if_pos rfl]
      simp only [Option.some.injEq, Prod.mk.injEq]
      constructor
      · rintro ⟨rfl, rfl⟩
        simp
      · rintro ⟨h1, h2⟩
        cases a with
        | nil => simp at h2; exact ⟨rfl, h2⟩
        | cons x xs =>
          simp only [List.cons_append, List.cons.injEq] at h2
          exact absurd (by rw [← h2.1]; simp) h1
    · rw [if_neg hc]
      simp only [Option.map_eq_some_iff, Prod.exists, Prod.mk.injEq]
      constructor
      · rintro ⟨x, y, h, rfl, rfl⟩
        obtain ⟨h1, h2⟩ := (ih x).1 (by rw [h])
        exact ⟨by simp [h1, Ne.symm hc], by simp [h2]⟩
      · rintro ⟨h1, h2⟩
        cases a with
        | nil => simp at h2; exact absurd h2.1 hc
        | cons x xs =>
          simp only [List.cons_append, List.cons.injEq] at h2
          obtain ⟨rfl, h2⟩ := h2
          exact ⟨xs, b, (ih xs).2 ⟨fun h => h1 (by simp [h]), h2⟩, rfl, rfl⟩

/-! ## Modes -/

theorem parsePieces_ok (ps : List Str) (ns : List Nat) :
    parsePieces ps = .ok ns ↔ ps.map parseU64 = ns.map some := by
  induction ps generalizing ns with
  | nil => cases ns <;> simp [parsePieces]
  | cons p ps ih =>
    rw [parsePieces]
    cases hp : parseU64 p with
    | none =>
      simp only [reduceCtorEq, List.map_cons, hp, false_iff]
      cases ns <;> simp
    | some n =>
      simp only [List.map_cons, hp]
      cases ns with
      | nil => simp only [List.map_nil, reduceCtorEq, iff_false]; cases parsePieces ps <;> simp [Res.map, Res.bind]
      | cons m ms =>
        simp only [List.map_cons, List.cons.injEq, Option.some.injEq]
        rw [← ih]
        cases parsePieces ps <;> simp [Res.map, Res.bind]

theorem parsePieces_cases (ps : List Str) :
    (∃ ns, parsePieces ps = .ok ns) ∨ (parsePieces ps = .panic ∧ ∃ p ∈ ps, parseU64 p = none) := by
  induction ps with
  | nil => exact Or.inl ⟨[], rfl⟩
  | cons p ps ih =>
    rw [parsePieces]
    cases hp : parseU64 p with
    | none => exact Or.inr ⟨rfl, p, by simp, hp⟩
    | some n =>
      simp only
      rcases ih with ⟨ns, h⟩ | ⟨h, q, hq, hn⟩
      · exact Or.inl ⟨n :: ns, by rw [h]; rfl⟩
      · exact Or.inr ⟨by rw [h]; rfl, q, by simp [hq], hn⟩

theorem parseModeType_ok (t : Str) (a b : Nat) : parseModeType t = .ok (.blockRange a b) ↔
    ∃ x y, Numeral x a ∧ Numeral y b ∧ a ≤ b ∧ t = 'r' :: (x ++ '-' :: y) := by
  cases t with
  | nil => simp [parseModeType]
  | cons c rest =>
    unfold parseModeType
    simp only
    constructor
    · intro h
      split at h
      · cases h
      · split at h
        · next hr =>
          subst hr
          cases hp : parsePieces (split '-' rest) with
          | panic => rw [hp] at h; cases h
          | err => rw [hp] at h; cases h
          | ok ns =>
            rw [hp] at h
            simp only [Res.bind] at h
            split at h
            · split at h
              · cases h
              · next s l hsl =>
                cases h
                have hm := (parsePieces_ok _ _).1 hp
                have hlen := congrArg List.length hm
                simp only [List.length_map, List.length_cons, List.length_nil] at hlen
                match hs : split '-' rest, hlen with
                | [x, y], _ =>
                  rw [hs] at hm
                  simp only [List.map_cons, List.map_nil, List.cons.injEq, and_true] at hm
                  exact ⟨x, y, (parseU64_iff _ _).1 hm.1, (parseU64_iff _ _).1 hm.2, by omega,
                    by rw [split_pair _ _ _ _ hs]⟩
            · cases h
        · cases h
    · rintro ⟨x, y, hx, hy, hab, ht⟩
      simp only [List.cons.injEq] at ht
      obtain ⟨rfl, rfl⟩ := ht
      rw [if_neg (by decide), if_pos rfl, split_append _ _ (numeral_dash hx), split_none _ _ (numeral_dash hy),
        (parsePieces_ok [x, y] [a, b]).2 (by simp [(parseU64_iff _ _).2 hx, (parseU64_iff _ _).2 hy])]
      simp only [Res.bind]
      rw [if_neg (by omega)]

theorem parseModeType_panic (t : Str) : parseModeType t = .panic ↔
    (∃ c rest, 1 < c.utf8Size ∧ t = c :: rest) ∨
    (∃ rest, t = 'r' :: rest ∧ ¬ ∃ ps, ps ≠ [] ∧ (∀ p ∈ ps, ∃ n, Numeral p n) ∧ rest = between '-' ps) := by
  cases t with
  | nil => simp [parseModeType]
  | cons c rest =>
    unfold parseModeType
    simp only [List.cons.injEq]
    by_cases hc : c.utf8Size ≠ 1
    · rw [if_pos hc]
      simp only [true_iff]
      have := c.utf8Size_pos
      exact Or.inl ⟨c, rest, by omega, rfl, rfl⟩
    · rw [if_neg hc]
      have hsmall : ¬ ∃ c' rest', 1 < c'.utf8Size ∧ c = c' ∧ rest = rest' := by
        rintro ⟨c', _, h, rfl, _⟩
        omega
      by_cases hr : c = 'r'
      · rw [if_pos hr]
        have hbad : (∃ p ∈ split '-' rest, parseU64 p = none) ↔
            ¬ ∃ ps, ps ≠ [] ∧ (∀ p ∈ ps, ∃ n, Numeral p n) ∧ rest = between '-' ps := by
          constructor
          · rintro ⟨p, hp, hn⟩ ⟨ps, hne, hall, rfl⟩
            rw [split_between _ _ hne (fun q hq => by obtain ⟨n, h⟩ := hall q hq; exact numeral_dash h)] at hp
            obtain ⟨n, h⟩ := hall p hp
            rw [(parseU64_iff _ _).2 h] at hn
            cases hn
          · intro h
            refine Classical.byContradiction fun hno => h ⟨split '-' rest, split_ne_nil _ _, ?_, (between_split _ _).symm⟩
            intro p hp
            cases hv : parseU64 p with
            | none => exact absurd ⟨p, hp, hv⟩ hno
            | some n => exact ⟨n, (parseU64_iff _ _).1 hv⟩
        constructor
        · intro h
          refine Or.inr ⟨rest, ⟨hr, rfl⟩, hbad.1 ?_⟩
          rcases parsePieces_cases (split '-' rest) with ⟨ns, hk⟩ | ⟨_, hk⟩
          · rw [hk] at h
            simp only [Res.bind] at h
            split at h
            · split at h <;> cases h
            · cases h
          · exact hk
        · rintro (h | ⟨rest', ⟨_, rfl⟩, h⟩)
          · exact absurd h hsmall
          · obtain ⟨p, hp, hn⟩ := hbad.2 h
            rcases parsePieces_cases (split '-' rest) with ⟨ns, hk⟩ | ⟨hk, _⟩
            · have hm := (parsePieces_ok _ _).1 hk
              have : parseU64 p ∈ (split '-' rest).map parseU64 := List.mem_map_of_mem hp
              rw [hm, hn] at this
              simp at this
            · rw [hk]; rfl
      · rw [if_neg hr]
        simp only [reduceCtorEq, false_iff]
        rintro (h | ⟨_, ⟨h, _⟩, _⟩)
        · exact hsmall h
        · exact hr h

end Verif.BridgeCli
