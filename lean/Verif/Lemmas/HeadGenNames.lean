import Verif.Props.HeadGenSpec
import Verif.Props.Hex

/-! # Lemmas: names of files and their order -/

namespace Verif.Props
open Verif Verif.HeadGen Verif.HeadSpec

theorem value_append (a : List Char) (c : Char) : value (a ++ [c]) = value a * 10 + (c.toNat - 48) := by
  unfold value; rw [List.foldl_append]; rfl

theorem digit_char (d : Nat) (h : d < 10) : '0' ≤ Char.ofNat (48 + d) ∧ Char.ofNat (48 + d) ≤ '9' ∧
    (Char.ofNat (48 + d)).toNat - 48 = d ∧ (Char.ofNat (48 + d) = '0' → d = 0) := by
  have : ∀ d : Fin 10, '0' ≤ Char.ofNat (48 + d.val) ∧ Char.ofNat (48 + d.val) ≤ '9' ∧
      (Char.ofNat (48 + d.val)).toNat - 48 = d.val ∧ (Char.ofNat (48 + d.val) = '0' → d.val = 0) := by decide
  exact this ⟨d, h⟩

theorem decimal_spec (n : Nat) : (∀ c ∈ decimal n, '0' ≤ c ∧ c ≤ '9') ∧ value (decimal n) = n ∧ 0 < (decimal n).length ∧
    (1 < (decimal n).length → (decimal n).head? ≠ some '0') ∧ ((decimal n).head? = some '0' → n = 0) := by
  induction n using Nat.strongRecOn with
  | ind n ih =>
    rw [decimal]
    split
    · next h =>
      obtain ⟨h1, h2, h3, h4⟩ := digit_char n h
      refine ⟨?_, ?_, by simp, by simp, ?_⟩
      · intro c hc
        simp only [List.mem_singleton] at hc
        subst hc; exact ⟨h1, h2⟩
      · simp only [value, List.foldl_cons, List.foldl_nil]; omega
      · simpa using h4
    · next h =>
      obtain ⟨i1, i2, i3, i4, i5⟩ := ih (n / 10) (by omega)
      obtain ⟨h1, h2, h3, h4⟩ := digit_char (n % 10) (by omega)
      have hh : (decimal (n / 10) ++ [Char.ofNat (48 + n % 10)]).head? = (decimal (n / 10)).head? := by
        cases hd : decimal (n / 10) with
        | nil => rw [hd] at i3; simp at i3
        | cons a l => rfl
      refine ⟨?_, ?_, by simp, ?_, ?_⟩
      · intro c hc
        rw [List.mem_append, List.mem_singleton] at hc
        rcases hc with hc | rfl
        · exact i1 c hc
        · exact ⟨h1, h2⟩
      · rw [value_append, i2, h3]; omega
      · intro _ h0
        rw [hh] at h0
        have := i5 h0
        omega
      · intro h0
        rw [hh] at h0
        have := i5 h0
        omega

theorem value_zeros (k : Nat) (ds : List Char) : value (List.replicate k '0' ++ ds) = value ds := by
  induction k with
  | zero => rfl
  | succ k ih =>
    rw [List.replicate_succ]
    have : value ('0' :: List.replicate k '0' ++ ds) = value (List.replicate k '0' ++ ds) := by
      simp [value]
    rw [this, ih]

theorem hexBody_flatMap (bs : Bytes) : Hex.hexBody Hex.digit bs =
    bs.flatMap fun x => [Hex.digit (x.toNat / 16), Hex.digit (x.toNat % 16)] := by
  induction bs with
  | nil => rfl
  | cons b bs ih => simp [Hex.hexBody, ih]

theorem hex_char (d : Nat) (h : d < 16) : ('0' ≤ Hex.digit d ∧ Hex.digit d ≤ '9') ∨ ('a' ≤ Hex.digit d ∧ Hex.digit d ≤ 'f') := by
  have : ∀ d : Fin 16, ('0' ≤ Hex.digit d.val ∧ Hex.digit d.val ≤ '9') ∨ ('a' ≤ Hex.digit d.val ∧ Hex.digit d.val ≤ 'f') := by
    decide
  exact this ⟨d, h⟩

theorem hexBody_spec (bs : Bytes) : (Hex.hexBody Hex.digit bs).length = 2 * bs.length ∧
    ∀ c ∈ Hex.hexBody Hex.digit bs, ('0' ≤ c ∧ c ≤ '9') ∨ ('a' ≤ c ∧ c ≤ 'f') := by
  induction bs with
  | nil => simp [Hex.hexBody]
  | cons b bs ih =>
    have hb := b.toNat_lt
    refine ⟨by simp [Hex.hexBody, ih.1]; omega, fun c hc => ?_⟩
    simp only [Hex.hexBody, List.mem_cons] at hc
    rcases hc with rfl | rfl | hc
    · exact hex_char _ (by omega)
    · exact hex_char _ (by omega)
    · exact ih.2 c hc

theorem fileName_named (k : Nat) (h : Bytes) (hl : h.length = 4) :
    ∃ digits, NamedFor (fileName k h) k (h.flatMap fun x => [Hex.digit (x.toNat / 16), Hex.digit (x.toNat % 16)]) digits := by
  obtain ⟨h1, h2, h3, h4, h5⟩ := decimal_spec k
  obtain ⟨x1, x2⟩ := hexBody_spec h
  rw [← hexBody_flatMap]
  refine ⟨List.replicate (5 - (decimal k).length) '0' ++ decimal k, ?_, ?_, ?_, ?_, ?_, by rw [x1, hl], x2⟩
  · show "mainnet-".toList ++ _ ++ '-' :: _ = _
    simp only [List.append_assoc]
    rfl
  · intro c hc
    rw [List.mem_append, List.mem_replicate] at hc
    rcases hc with ⟨_, rfl⟩ | hc
    · decide
    · exact h1 c hc
  · rw [value_zeros, h2]
  · simp; omega
  · intro hlen
    rw [List.length_append, List.length_replicate] at hlen
    have : 5 - (decimal k).length = 0 := by omega
    rw [this]
    exact h4 (by omega)

/-! ## Reading the index -/

theorem splitDash_none (cs : List Char) (h : '-' ∉ cs) : splitDash cs = [cs] := by
  induction cs with
  | nil => rfl
  | cons c cs ih =>
    rw [List.mem_cons] at h
    have h1 : c ≠ '-' := fun hc => h (.inl hc.symm)
    rw [splitDash, if_neg h1, ih (fun hc => h (.inr hc))]

theorem splitDash_append (a b : List Char) (h : '-' ∉ a) : splitDash (a ++ '-' :: b) = a :: splitDash b := by
  induction a with
  | nil => simp [splitDash]
  | cons c cs ih =>
    rw [List.mem_cons] at h
    have h1 : c ≠ '-' := fun hc => h (.inl hc.symm)
    rw [List.cons_append, splitDash, if_neg h1, ih (fun hc => h (.inr hc))]

theorem parseDigits_value (ds : List Char) (acc : Nat) (h : ∀ c ∈ ds, '0' ≤ c ∧ c ≤ '9') :
    parseDigits ds acc = some (ds.foldl (fun a c => a * 10 + (c.toNat - 48)) acc) := by
  induction ds generalizing acc with
  | nil => rfl
  | cons c cs ih =>
    rw [parseDigits, if_pos (h c List.mem_cons_self), ih _ fun d hd => h d (List.mem_cons_of_mem _ hd)]
    rfl

theorem extract_named (key : List Char) (k : Nat) (h : KeyFor key k) (hk : k < 2 ^ 64) : extractIndex key = some k := by
  obtain ⟨hash, digits, h⟩ := h
  have hd : '-' ∉ digits := fun hc => absurd (h.digit _ hc) (by decide)
  have hh : '-' ∉ hash ++ ".e2hs".toList := by
    intro hc
    rw [List.mem_append] at hc
    rcases hc with hc | hc
    · exact absurd (h.hex.2 _ hc) (by decide)
    · exact absurd hc (by decide)
  have hkey : key = "mainnet".toList ++ '-' :: (digits ++ '-' :: (hash ++ ".e2hs".toList)) := by
    rw [h.key]
    simp only [List.append_assoc]
    rfl
  have hs : splitDash key = ["mainnet".toList, digits, hash ++ ".e2hs".toList] := by
    rw [hkey, splitDash_append _ _ (by decide), splitDash_append _ _ hd, splitDash_none _ hh]
  unfold extractIndex
  rw [hs]
  show parseU64 digits = some k
  have hne : digits ≠ [] := fun hn => by have := h.long; rw [hn] at this; simp at this
  unfold parseU64
  have hp : digits.head? ≠ some '+' := fun hn => absurd (h.digit '+' (List.mem_of_mem_head? hn)) (by decide)
  simp only [if_neg hp, if_neg hne, parseDigits_value digits 0 h.digit]
  have hv : List.foldl (fun a c => a * 10 + (c.toNat - 48)) 0 digits = k := h.value
  rw [hv]
  simp [Option.filter, hk]

/-! ## The order of keys -/

theorem foldl_value (ds : List Char) (a : Nat) :
    ds.foldl (fun a c => a * 10 + (c.toNat - 48)) a = a * 10 ^ ds.length + value ds := by
  induction ds generalizing a with
  | nil => simp [value]
  | cons c cs ih =>
    unfold value
    rw [List.foldl_cons, List.foldl_cons, ih, ih (0 * 10 + _), List.length_cons, Nat.pow_succ, Nat.zero_mul, Nat.zero_add,
      Nat.add_mul, Nat.mul_assoc, Nat.mul_comm 10, Nat.add_assoc]

theorem value_cons (c : Char) (cs : List Char) : value (c :: cs) = (c.toNat - 48) * 10 ^ cs.length + value cs := by
  have := foldl_value cs (0 * 10 + (c.toNat - 48))
  rw [Nat.zero_mul, Nat.zero_add] at this
  unfold value
  rw [List.foldl_cons, Nat.zero_mul, Nat.zero_add]
  exact this

theorem value_lt (ds : List Char) (h : ∀ c ∈ ds, '0' ≤ c ∧ c ≤ '9') : value ds < 10 ^ ds.length := by
  induction ds with
  | nil => simp [value]
  | cons c cs ih =>
    have h1 := ih fun d hd => h d (List.mem_cons_of_mem _ hd)
    have h2 := (h c List.mem_cons_self).2
    rw [char_le_iff] at h2
    have h3 : ('9' : Char).toNat = 57 := rfl
    rw [value_cons, List.length_cons, Nat.pow_succ, Nat.mul_comm _ 10]
    have h4 : (c.toNat - 48) * 10 ^ cs.length ≤ 9 * 10 ^ cs.length := Nat.mul_le_mul_right _ (by omega)
    omega

/-- Digits of the same length are ordered as their values. -/
theorem lex_value (a b x y : List Char) (hl : a.length = b.length) (ha : ∀ c ∈ a, '0' ≤ c ∧ c ≤ '9')
    (hb : ∀ c ∈ b, '0' ≤ c ∧ c ≤ '9') (h : value a < value b) : a ++ x < b ++ y := by
  induction a generalizing b with
  | nil =>
    cases b with
    | nil => omega
    | cons => simp at hl
  | cons c a ih =>
    cases b with
    | nil => simp at hl
    | cons d b =>
      simp only [List.length_cons, Nat.add_right_cancel_iff] at hl
      have hc := ha c List.mem_cons_self
      have hd := hb d List.mem_cons_self
      have va := value_lt a fun e he => ha e (List.mem_cons_of_mem _ he)
      have vb := value_lt b fun e he => hb e (List.mem_cons_of_mem _ he)
      rw [value_cons, value_cons, hl] at h
      rw [char_le_iff, char_le_iff] at hc hd
      have h0 : ('0' : Char).toNat = 48 := rfl
      have h9 : ('9' : Char).toNat = 57 := rfl
      rcases Nat.lt_trichotomy c.toNat d.toNat with hlt | heq | hgt
      · exact List.Lex.rel (by
          show c.val < d.val
          exact UInt32.lt_iff_toNat_lt.mpr hlt)
      · have hcd : c = d := Char.ext (UInt32.toNat_inj.mp heq)
        subst hcd
        exact List.Lex.cons (ih b hl (fun e he => ha e (List.mem_cons_of_mem _ he))
          (fun e he => hb e (List.mem_cons_of_mem _ he)) (by omega))
      · exfalso
        have : (d.toNat - 48 + 1) * 10 ^ b.length ≤ (c.toNat - 48) * 10 ^ b.length := Nat.mul_le_mul_right _ (by omega)
        rw [Nat.add_mul] at this
        rw [hl] at va
        omega

theorem digits_five (key hash digits : List Char) (k : Nat) (h : NamedFor key k hash digits) (hk : k < 100000) :
    digits.length = 5 := by
  refine Classical.byContradiction fun hne => ?_
  have hl := h.long
  have hs := h.short (by omega)
  cases hd : digits with
  | nil => rw [hd] at hl; simp at hl
  | cons c cs =>
    have hc := (h.digit c (by rw [hd]; exact List.mem_cons_self)).1
    have hv := h.value
    rw [hd] at hs hv hl hne
    rw [value_cons] at hv
    simp only [List.head?_cons, ne_eq, Option.some.injEq] at hs
    simp only [List.length_cons] at hl hne
    have h1 : 10 ^ 5 ≤ 10 ^ cs.length := Nat.pow_le_pow_right (by omega) (by omega)
    have h2 : 1 ≤ c.toNat - 48 := by
      rw [char_le_iff] at hc
      have h0 : ('0' : Char).toNat = 48 := rfl
      have : c.toNat ≠ 48 := fun hc => hs (Char.ext (UInt32.toNat_inj.mp hc))
      omega
    have h3 : 1 * 10 ^ cs.length ≤ (c.toNat - 48) * 10 ^ cs.length := Nat.mul_le_mul_right _ h2
    omega

theorem prefix_lt (p a b : List Char) (h : a < b) : p ++ a < p ++ b := by
  induction p with
  | nil => exact h
  | cons c p ih => exact List.Lex.cons ih

theorem key_lt (k1 k2 : List Char) (a b : Nat) (h1 : KeyFor k1 a) (h2 : KeyFor k2 b) (hab : a < b) (hb : b < 100000) :
    k1 < k2 := by
  obtain ⟨x1, d1, h1⟩ := h1
  obtain ⟨x2, d2, h2⟩ := h2
  have e1 := digits_five _ _ _ _ h1 (by omega)
  have e2 := digits_five _ _ _ _ h2 hb
  rw [h1.key, h2.key]
  simp only [List.append_assoc]
  exact prefix_lt _ _ _ (lex_value _ _ _ _ (by omega) h1.digit h2.digit (by rw [h1.value, h2.value]; exact hab))

theorem keyFor_unique (key : List Char) (a b : Nat) (h1 : KeyFor key a) (h2 : KeyFor key b) : a = b := by
  obtain ⟨x1, d1, h1⟩ := h1
  obtain ⟨x2, d2, h2⟩ := h2
  have e := h1.key.symm.trans h2.key
  simp only [List.append_assoc] at e
  have e := List.append_cancel_left e
  have : d1 = d2 := by
    have key : ∀ (a b x y : List Char), (∀ c ∈ a, '0' ≤ c ∧ c ≤ '9') → (∀ c ∈ b, '0' ≤ c ∧ c ≤ '9') →
        a ++ '-' :: x = b ++ '-' :: y → a = b := by
      intro a
      induction a with
      | nil =>
        intro b x y _ hb h
        cases b with
        | nil => rfl
        | cons d b =>
          simp only [List.nil_append, List.cons_append, List.cons.injEq] at h
          exact absurd (hb d List.mem_cons_self) (by rw [← h.1]; decide)
      | cons c a ih =>
        intro b x y ha hb h
        cases b with
        | nil =>
          simp only [List.nil_append, List.cons_append, List.cons.injEq] at h
          exact absurd (ha c List.mem_cons_self) (by rw [h.1]; decide)
        | cons d b =>
          simp only [List.cons_append, List.cons.injEq] at h
          rw [h.1, ih b x y (fun e he => ha e (List.mem_cons_of_mem _ he)) (fun e he => hb e (List.mem_cons_of_mem _ he)) h.2]
    exact key d1 d2 _ _ h1.digit h2.digit e
  rw [← h1.value, ← h2.value, this]

end Verif.Props
