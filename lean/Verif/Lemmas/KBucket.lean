import Verif.Model.KBucket
import Verif.Lemmas.Distance
import Verif.Lemmas.Wire
import Verif.Lemmas.Sort

namespace Verif.KBucket
open Verif.Ssz

variable {E : Type}

theorem sszLen_eq (c : Wire.EnrCodec E) (es : List E) :
    sszLen c es = (encodeVarList (es.map c.enc)).length := by
  rw [encodeVarList_length]
  induction es with
  | nil => rfl
  | cons e es ih =>
    simp only [sszLen, List.map_cons, List.sum_cons, List.length_cons] at *
    omega

theorem sszLen_append (c : Wire.EnrCodec E) (as bs : List E) :
    sszLen c (as ++ bs) = sszLen c as + sszLen c bs := by
  simp [sszLen]

theorem sszLen_prefix (c : Wire.EnrCodec E) {as bs : List E} (h : as <+: bs) :
    sszLen c as ≤ sszLen c bs := by
  obtain ⟨t, rfl⟩ := h
  rw [sszLen_append]; omega

theorem popN_spec (c : Wire.EnrCodec E) (max : Nat) : ∀ (n : Nat) (es : List E), es.length ≤ n →
    sszLen c (popN c max n es) ≤ max ∧ popN c max n es <+: es ∧
      ∀ p, p <+: es → (popN c max n es).length < p.length → max < sszLen c p
  | 0, es, h => by
    have : es = [] := List.length_eq_zero_iff.1 (by omega)
    subst this
    refine ⟨by simp [popN, sszLen], List.prefix_refl _, ?_⟩
    intro p hp hl
    have := hp.length_le
    simp [popN] at hl this
    simp [this] at hl
  | n + 1, es, h => by
    rw [popN]
    split
    · next h1 =>
      obtain ⟨i1, i2, i3⟩ := popN_spec c max n es.dropLast (by rw [List.length_dropLast]; omega)
      refine ⟨i1, i2.trans (List.dropLast_prefix es), ?_⟩
      intro p hp hl
      by_cases hpe : p = es
      · subst hpe; exact h1
      · have : p <+: es.dropLast := by
          have hlt : p.length < es.length :=
            Nat.lt_of_le_of_ne hp.length_le (fun hh => hpe (hp.eq_of_length hh))
          rw [List.prefix_iff_eq_take] at hp ⊢
          rw [List.dropLast_eq_take, List.take_take, Nat.min_eq_left (by omega)]
          exact hp
        exact i3 p this hl
    · next h1 =>
      refine ⟨by omega, List.prefix_refl _, ?_⟩
      intro p hp hl
      have := hp.length_le
      omega

theorem popWhile_le (c : Wire.EnrCodec E) (max : Nat) (es : List E) :
    sszLen c (popWhile c max es) ≤ max := (popN_spec c max _ es (Nat.le_refl _)).1

theorem popWhile_prefix (c : Wire.EnrCodec E) (max : Nat) (es : List E) :
    popWhile c max es <+: es := (popN_spec c max _ es (Nat.le_refl _)).2.1

/-- Any prefix longer than the result is too large. -/
theorem popWhile_maximal (c : Wire.EnrCodec E) (max : Nat) (es p : List E) (hp : p <+: es)
    (hl : (popWhile c max es).length < p.length) : max < sszLen c p :=
  (popN_spec c max _ es (Nat.le_refl _)).2.2 p hp hl

theorem popWhile_eq_self (c : Wire.EnrCodec E) (max : Nat) (es : List E) (h : sszLen c es ≤ max) :
    popWhile c max es = es := by
  apply (popWhile_prefix c max es).eq_of_length
  apply Classical.byContradiction
  intro hne
  have := (popWhile_prefix c max es).length_le
  have := popWhile_maximal c max es es (List.prefix_refl _) (by omega)
  omega

theorem pushAll_spec (limit : Nat) : ∀ (es acc : List E), acc.length < limit →
    pushAll limit acc es =
      (acc ++ es.take (limit - acc.length), decide (limit ≤ acc.length + es.length))
  | [], acc, h => by
    simp [pushAll]; omega
  | e :: es, acc, h => by
    rw [pushAll]
    have hk : limit - acc.length = (limit - acc.length - 1) + 1 := by omega
    rw [hk, List.take_succ_cons]
    split
    · next h1 =>
      simp only [List.length_append, List.length_cons, List.length_nil] at h1
      have : limit - acc.length - 1 = 0 := by omega
      rw [this]
      simp; omega
    · next h1 =>
      simp only [List.length_append, List.length_cons, List.length_nil] at h1
      rw [pushAll_spec limit es (acc ++ [e]) (by simp; omega)]
      simp only [List.length_append, List.length_cons, List.length_nil, List.append_assoc,
        List.singleton_append]
      refine Prod.ext ?_ ?_
      · show acc ++ e :: _ = acc ++ e :: _
        rw [Nat.sub_sub]
      · show decide _ = decide _
        rw [decide_eq_decide]; omega

theorem collect_spec (limit : Nat) (items : UInt16 → List E) :
    ∀ (ds : List UInt16) (acc : List E), acc.length < limit →
      collect limit items acc ds = acc ++ (ds.flatMap items).take (limit - acc.length)
  | [], acc, _ => by simp [collect]
  | d :: ds, acc, h => by
    rw [collect, pushAll_spec limit _ _ h]
    by_cases hfull : limit ≤ acc.length + (items d).length
    · simp only [hfull, decide_true, List.flatMap_cons]
      rw [List.take_append_of_le_length (by omega)]
    · simp only [hfull, decide_false, List.flatMap_cons]
      rw [collect_spec limit items ds _ (by
        rw [List.length_append, List.length_take]; omega)]
      rw [List.take_of_length_le (l := items d) (by omega), List.append_assoc, List.take_append,
        List.take_of_length_le (l := items d) (by omega), List.length_append, Nat.sub_sub]

theorem nodesByDistances_eq (nodeId : E → Id) (localEnr : E) (table : List (Entry E))
    (ds : List UInt16) {limit : Nat} (h : 0 < limit) :
    nodesByDistances nodeId localEnr table ds limit =
      ((dedup (sortDistances ds)).flatMap (atDistance nodeId localEnr table limit)).take limit := by
  rw [nodesByDistances, collect_spec _ _ _ _ (by simpa using h)]
  simp

theorem mem_dedup {a : UInt16} {l : List UInt16} : a ∈ dedup l ↔ a ∈ l := by
  fun_induction dedup l with
  | case1 => simp
  | case2 => simp
  | case3 b l ih => rw [ih]; simp
  | case4 x b l h ih => rw [List.mem_cons, ih, List.mem_cons (b := x)]

theorem mem_sortDistances {a : UInt16} {l : List UInt16} : a ∈ sortDistances l ↔ a ∈ l := mem_sortBy

theorem sorted_sortDistances (l : List UInt16) : (sortDistances l).Pairwise (· ≤ ·) :=
  (sortBy_key_sorted (fun a : UInt16 => a.toNat) l).imp
    (fun h => UInt16.le_iff_toNat_le.2 h)

theorem dedup_head (l : List UInt16) : (dedup l).head? = l.head? := by
  fun_induction dedup l with
  | case1 => rfl
  | case2 => rfl
  | case3 b l ih => rw [ih]; rfl
  | case4 => rfl

theorem dedup_nodup : ∀ {l : List UInt16}, l.Pairwise (· ≤ ·) → (dedup l).Nodup := by
  intro l
  fun_induction dedup l with
  | case1 => simp
  | case2 => simp
  | case3 b l ih => intro h; exact ih (List.pairwise_cons.1 h).2
  | case4 x b l hne ih =>
    intro h
    obtain ⟨h1, h2⟩ := List.pairwise_cons.1 h
    rw [List.nodup_cons]
    refine ⟨?_, ih h2⟩
    intro hm
    rw [mem_dedup] at hm
    have hb := h1 b (by simp)
    rcases List.mem_cons.1 hm with he | hm
    · exact hne he
    · have := (List.pairwise_cons.1 h2).1 x hm
      exact hne (UInt16.le_antisymm hb this)

/-- Zero comes first after sorting. -/
theorem head_zero {l : List UInt16} (h : (0 : UInt16) ∈ l) :
    (dedup (sortDistances l)).head? = some 0 := by
  rw [dedup_head]
  have hs := sorted_sortDistances l
  have hm := mem_sortDistances.2 h
  cases he : sortDistances l with
  | nil => rw [he] at hm; cases hm
  | cons a t =>
    rw [he] at hs hm
    rcases List.mem_cons.1 hm with h0 | h0
    · rw [← h0]; rfl
    · have := (List.pairwise_cons.1 hs).1 0 h0
      have : a = 0 := UInt16.le_antisymm this (by simp [UInt16.le_iff_toNat_le])
      rw [this]; rfl

theorem closestTo_perm_prefix (nodeId : E → Id) (table : List (Entry E)) (target : Id) :
    ∃ sorted : List (Entry E), sorted.Perm (table.filter (·.connected)) ∧
      sorted.Pairwise (fun a b => xorDistance target (nodeId a.enr) ≤ xorDistance target (nodeId b.enr)) ∧
      ∀ limit, closestTo nodeId table target limit = (sorted.take limit).map (·.enr) := by
  exact ⟨_, sortBy_perm _, sortBy_key_sorted (fun a : Entry E => xorDistance target (nodeId a.enr)) _,
    fun limit => rfl⟩

end Verif.KBucket

namespace Verif.KBucket

theorem filter_or_perm {α : Type} (p q : α → Bool) :
    ∀ l : List α, (∀ a ∈ l, p a = true → q a = false) →
      (l.filter p ++ l.filter q).Perm (l.filter fun a => p a || q a)
  | [], _ => List.Perm.refl _
  | a :: l, h => by
    have ih := filter_or_perm p q l (fun b hb => h b (by simp [hb]))
    cases hp : p a with
    | true =>
      have hq := h a (by simp) hp
      simp only [List.filter_cons, hp, hq, if_true, Bool.true_or, List.cons_append]
      exact ih.cons a
    | false =>
      cases hq : q a with
      | true =>
        simp only [List.filter_cons, hp, hq, if_true, Bool.or_true]
        exact (List.perm_middle).trans (ih.cons a)
      | false =>
        simp only [List.filter_cons, hp, hq, Bool.or_self]
        exact ih

theorem flatMap_filter_perm {α δ : Type} (p : δ → α → Bool)
    (hdisj : ∀ d d' a, p d a = true → p d' a = true → d = d') (l : List α) :
    ∀ ds : List δ, ds.Nodup →
      (ds.flatMap fun d => l.filter (p d)).Perm (l.filter fun a => ds.any fun d => p d a)
  | [], _ => by simp
  | d :: ds, hn => by
    rw [List.nodup_cons] at hn
    have ih := flatMap_filter_perm p hdisj l ds hn.2
    rw [List.flatMap_cons]
    refine (ih.append_left _).trans ?_
    have := filter_or_perm (p d) (fun a => ds.any fun d => p d a) l (by
      intro a _ h1
      rw [Bool.eq_false_iff]
      intro h2
      obtain ⟨d', hd', h3⟩ := List.any_eq_true.1 h2
      exact hn.1 (hdisj d d' a h1 h3 ▸ hd'))
    simpa [List.any_cons] using this

theorem sszLen_perm (c : Wire.EnrCodec E) {as bs : List E} (h : as.Perm bs) :
    sszLen c as = sszLen c bs := (h.map _).sum_nat

theorem sszLen_sublist (c : Wire.EnrCodec E) {as bs : List E} (h : as.Sublist bs) :
    sszLen c as ≤ sszLen c bs := by
  induction h with
  | slnil => exact Nat.le_refl _
  | cons a _ ih => simp only [sszLen, List.map_cons, List.sum_cons] at *; omega
  | cons_cons a _ ih => simp only [sszLen, List.map_cons, List.sum_cons] at *; omega

end Verif.KBucket
