import Verif.Lemmas.TrieWalker
import Verif.Lemmas.Nibbles

namespace Verif.TrieWalker
open Verif.Trie

/-! ## Nibbles as numbers -/

theorem nibblesValue_foldl (p : List UInt8) : ∀ a, p.foldl (fun acc n => acc * 16 + n.toNat) a =
    a * 16 ^ p.length + nibblesValue p := by
  induction p with
  | nil => intro a; simp [nibblesValue]
  | cons n p ih =>
    intro a
    simp only [nibblesValue, List.foldl_cons]
    rw [ih, ih (0 * 16 + n.toNat)]
    simp only [List.length_cons, Nat.pow_succ]
    grind

theorem nibblesValue_append (p x : List UInt8) : nibblesValue (p ++ x) = nibblesValue p * 16 ^ x.length + nibblesValue x := by
  rw [nibblesValue, List.foldl_append, nibblesValue_foldl]
  rfl

theorem nibblesValue_cons (n : UInt8) (p : List UInt8) : nibblesValue (n :: p) = n.toNat * 16 ^ p.length + nibblesValue p := by
  have := nibblesValue_append [n] p
  simpa [nibblesValue] using this

theorem nibblesValue_lt : ∀ (p : List UInt8), Nibble p → nibblesValue p < 16 ^ p.length
  | [], _ => by simp [nibblesValue]
  | n :: p, h => by
    have h1 := nibblesValue_lt p fun m hm => h m (.tail _ hm)
    have h2 := h n (.head _)
    rw [nibblesValue_cons, List.length_cons, Nat.pow_succ]
    have : n.toNat * 16 ^ p.length ≤ 15 * 16 ^ p.length := Nat.mul_le_mul_right _ (by omega)
    omega

theorem nibbles_exist : ∀ (m y : Nat), y < 16 ^ m → ∃ x : List UInt8, x.length = m ∧ Nibble x ∧ nibblesValue x = y
  | 0, y, h => ⟨[], rfl, fun _ hn => (nomatch hn), by simp at h; simp [nibblesValue, h]⟩
  | m + 1, y, h => by
    obtain ⟨x, h1, h2, h3⟩ := nibbles_exist m (y / 16) (by rw [Nat.pow_succ] at h; omega)
    have hd : (UInt8.ofNat (y % 16)).toNat = y % 16 := by
      rw [UInt8.toNat_ofNat']; omega
    refine ⟨x ++ [UInt8.ofNat (y % 16)], by simp [h1], nibble_append h2 ?_, ?_⟩
    · intro n hn
      simp only [List.mem_singleton] at hn
      subst hn
      rw [hd]; omega
    · rw [nibblesValue_append, h3]
      simp only [nibblesValue, List.foldl_cons, List.foldl_nil, List.length_singleton, Nat.pow_one, hd]
      omega

theorem packRight_length : ∀ p : List UInt8, (packRight p).length = (p.length + 1) / 2
  | [] => rfl
  | [_] => by simp [packRight]
  | a :: b :: p => by
    simp only [packRight, List.length_cons, packRight_length p]; omega

theorem fromBe_replicate (n : Nat) : fromBe (List.replicate n (0 : UInt8)) = 0 := by
  induction n with
  | zero => rfl
  | succ n ih => rw [List.replicate_succ, fromBe_cons, ih]; simp

theorem packRight_value : ∀ p : List UInt8, Nibble p → fromBe (packRight p) * 16 ^ (p.length) =
    nibblesValue p * 256 ^ ((p.length + 1) / 2)
  | [], _ => by simp [packRight, nibblesValue, fromBe]
  | [a], h => by
    have ha := h a (.head _)
    simp only [packRight, nibblesValue, fromBe, List.foldl_cons, List.foldl_nil, List.length_singleton]
    rw [Nibbles.shl4_toNat (by omega)]
    omega
  | a :: b :: p, h => by
    have ih := packRight_value p fun m hm => h m (.tail _ (.tail _ hm))
    have ha := h a (.head _)
    have hb := h b (.tail _ (.head _))
    have hpp := Nibbles.packPair_toNat (a := a) (b := b) (by omega) (by omega)
    simp only [packRight]
    have e : (a <<< 4 ||| b) = Nibbles.packPair a b := rfl
    rw [e, fromBe_cons, hpp, nibblesValue_cons, nibblesValue_cons, packRight_length]
    simp only [List.length_cons]
    have e2 : (p.length + 1 + 1 + 1) / 2 = (p.length + 1) / 2 + 1 := by omega
    rw [e2]
    simp only [Nat.pow_succ]
    have hX : (a.toNat * 16 + b.toNat) * 256 ^ ((p.length + 1) / 2) * (16 ^ p.length * 16 * 16) =
        (a.toNat * (16 ^ p.length * 16) + b.toNat * 16 ^ p.length) * (256 ^ ((p.length + 1) / 2) * 256) := by
      generalize 256 ^ ((p.length + 1) / 2) = u
      generalize 16 ^ p.length = v
      grind
    rw [Nat.add_mul, hX]
    have hY : fromBe (packRight p) * (16 ^ p.length * 16 * 16) =
        nibblesValue p * (256 ^ ((p.length + 1) / 2) * 256) := by
      have : fromBe (packRight p) * (16 ^ p.length * 16 * 16) = fromBe (packRight p) * 16 ^ p.length * 256 := by
        rw [Nat.mul_assoc (16 ^ p.length), ← Nat.mul_assoc]
      rw [this, ih, Nat.mul_assoc]
    rw [hY]
    grind

theorem padded_eq {p : List UInt8} (hl : p.length ≤ 64) (hn : Nibble p) :
    padded p = some (nibblesValue p * 16 ^ (64 - p.length)) := by
  unfold padded
  rw [if_neg (by omega), fromBe_append, fromBe_replicate, List.length_replicate, packRight_length, Nat.add_zero]
  congr 1
  have h := packRight_value p hn
  have hpos : 0 < 16 ^ p.length := Nat.pow_pos (by decide)
  apply Nat.eq_of_mul_eq_mul_right hpos
  rw [Nat.mul_assoc, Nat.mul_comm (256 ^ _), ← Nat.mul_assoc, h, Nat.mul_assoc, Nat.mul_assoc, ← Nat.pow_add, ← Nat.pow_add]
  congr 1
  have e1 : (p.length + 1) / 2 + (32 - (p.length + 1) / 2) = 32 := by omega
  have e2 : 64 - p.length + p.length = 64 := by omega
  rw [e1, e2]

/-- The slice without wrapping arithmetic. -/
theorem new_eq {index count : UInt16} (h2 : 2 ≤ count.toNat) (hi : index.toNat < count.toNat) :
    Filter.new index count = some ⟨index.toNat * (maxU256 / count.toNat + 1),
      if index.toNat + 1 = count.toNat then maxU256 else (index.toNat + 1) * (maxU256 / count.toNat + 1) - 1⟩ ∧
    (count.toNat - 1) * (maxU256 / count.toNat + 1) ≤ maxU256 ∧
    maxU256 < count.toNat * (maxU256 / count.toNat + 1) := by
  have hcl : count.toNat < 65536 := count.toNat_lt
  have hmod := Nat.div_add_mod maxU256 count.toNat
  have hml := Nat.mod_lt maxU256 (show 0 < count.toNat by omega)
  have hge : 65536 ≤ maxU256 / count.toNat := by
    rw [Nat.le_div_iff_mul_le (by omega)]
    have : 65536 * count.toNat ≤ 65536 * 65536 := Nat.mul_le_mul_left _ (by omega)
    have : (65536 * 65536 : Nat) ≤ maxU256 := by decide
    omega
  have hM : maxU256 < 2 ^ 256 := by decide
  unfold Filter.new
  rw [if_neg (by
    rintro (e | e) <;> subst e <;> simp at h2), if_pos (UInt16.lt_iff_toNat_lt.mpr hi)]
  generalize maxU256 / count.toNat = s at *
  have h4 : (count.toNat - 1) * (s + 1) = count.toNat * s - s + (count.toNat - 1) := by
    rw [Nat.mul_add, Nat.sub_mul]; omega
  have h6 : s ≤ count.toNat * s := Nat.le_mul_of_pos_left _ (by omega)
  have h7 : count.toNat * (s + 1) = count.toNat * s + count.toNat := by rw [Nat.mul_add]; omega
  have h3 : index.toNat * (s + 1) ≤ (count.toNat - 1) * (s + 1) := Nat.mul_le_mul_right _ (by omega)
  have hlast : index = count - 1 ↔ index.toNat + 1 = count.toNat := by
    rw [← UInt16.toNat_inj, UInt16.toNat_sub_of_le _ _ (by rw [UInt16.le_iff_toNat_le]; simp; omega)]
    simp; omega
  refine ⟨?_, by omega, by omega⟩
  simp only [Option.some.injEq, Filter.mk.injEq]
  rw [Nat.mod_eq_of_lt (by omega : index.toNat * (s + 1) < 2 ^ 256)]
  refine ⟨rfl, ?_⟩
  by_cases hl : index = count - 1
  · rw [if_pos hl, if_pos (hlast.mp hl)]
  · have hl' : ¬ index.toNat + 1 = count.toNat := fun e => hl (hlast.mpr e)
    rw [if_neg hl, if_neg hl']
    have h8 : (index.toNat + 1) * (s + 1) ≤ (count.toNat - 1) * (s + 1) := Nat.mul_le_mul_right _ (by omega)
    have h9 : (index.toNat + 1) * (s + 1) = index.toNat * (s + 1) + (s + 1) := by rw [Nat.add_mul]; omega
    rw [Nat.mod_eq_of_lt (by omega)]
    omega

theorem new_one {index count : UInt16} (h : count.toNat < 2) : Filter.new index count = some ⟨0, maxU256⟩ := by
  unfold Filter.new
  rw [if_pos]
  have : count.toNat = 0 ∨ count.toNat = 1 := by omega
  rcases this with e | e
  · exact .inl (UInt16.toNat_inj.mp (by simpa using e))
  · exact .inr (UInt16.toNat_inj.mp (by simpa using e))

theorem new_none {index count : UInt16} (h2 : 2 ≤ count.toNat) (hi : count.toNat ≤ index.toNat) :
    Filter.new index count = none := by
  unfold Filter.new
  rw [if_neg (by rintro (e | e) <;> subst e <;> simp at h2), if_neg]
  rw [UInt16.lt_iff_toNat_lt]; omega

/-- The bounds of a slice. -/
theorem new_bounds {index count : UInt16} {f : Filter} (h : Filter.new index count = some f) :
    f.start ≤ f.stop ∧ f.stop ≤ maxU256 := by
  by_cases h2 : 2 ≤ count.toNat
  · by_cases hi : index.toNat < count.toNat
    · obtain ⟨h3, h4, h5⟩ := new_eq h2 hi
      rw [h3] at h
      cases h
      simp only
      generalize maxU256 / count.toNat = s at *
      have h6 : index.toNat * (s + 1) ≤ (count.toNat - 1) * (s + 1) := Nat.mul_le_mul_right _ (by omega)
      split
      · omega
      · have h8 : (index.toNat + 1) * (s + 1) ≤ (count.toNat - 1) * (s + 1) := Nat.mul_le_mul_right _ (by omega)
        have h9 : (index.toNat + 1) * (s + 1) = index.toNat * (s + 1) + (s + 1) := by rw [Nat.add_mul]; omega
        omega
    · rw [new_none h2 (by omega)] at h; cases h
  · rw [new_one (by omega)] at h
    cases h
    exact ⟨Nat.zero_le _, Nat.le_refl _⟩

theorem contains_iff {f : Filter} (hf : f.start ≤ f.stop) {path : List UInt8} (hl : path.length ≤ 64)
    (hn : Nibble path) : ∃ b, f.contains path = some b ∧ (b = true ↔ f.Meets path) := by
  unfold Filter.contains
  rw [if_neg (by omega), padded_eq hl hn]
  refine ⟨_, rfl, ?_⟩
  simp only [decide_eq_true_eq, Nat.shiftRight_eq_div_pow, Nat.shiftLeft_eq]
  have e : 2 ^ (256 - path.length * 4) = 16 ^ (64 - path.length) := by
    rw [show (16 : Nat) = 2 ^ 4 from rfl, ← Nat.pow_mul]
    congr 1; omega
  rw [e]
  have hpos : 0 < 16 ^ (64 - path.length) := Nat.pow_pos (by decide)
  generalize hS : 16 ^ (64 - path.length) = S at *
  rw [Nat.mul_le_mul_right_iff hpos, Nat.mul_le_mul_right_iff hpos]
  have hds := Nat.div_add_mod f.start S
  have hdt := Nat.div_add_mod f.stop S
  have hms := Nat.mod_lt f.start hpos
  have hmt := Nat.mod_lt f.stop hpos
  have key : ∀ y, y < S → f.start ≤ nibblesValue path * S + y → nibblesValue path * S + y ≤ f.stop → f.Meets path := by
    intro y hy h1 h2
    obtain ⟨x, hx, hxn, hxv⟩ := nibbles_exist (64 - path.length) y (by rw [hS]; exact hy)
    refine ⟨path ++ x, by simp [hx]; omega, nibble_append hn hxn, List.prefix_append _ _, ?_⟩
    rw [nibblesValue_append, hx, hS, hxv]
    exact ⟨h1, h2⟩
  constructor
  · rintro ⟨h1, h2⟩
    by_cases e1 : f.start / S = nibblesValue path
    · refine key (f.start % S) hms ?_ ?_
      · rw [← e1, Nat.mul_comm]; omega
      · rw [← e1, Nat.mul_comm]; omega
    · have h3 : f.start / S + 1 ≤ nibblesValue path := by omega
      have h4 : (f.start / S + 1) * S ≤ nibblesValue path * S := Nat.mul_le_mul_right _ h3
      have h5 : nibblesValue path * S ≤ f.stop / S * S := Nat.mul_le_mul_right _ h2
      rw [Nat.add_mul, Nat.mul_comm (f.start / S)] at h4
      rw [Nat.mul_comm (f.stop / S)] at h5
      exact key 0 hpos (by omega) (by omega)
  · rintro ⟨k, hk, hkn, ⟨x, rfl⟩, h1, h2⟩
    have hx : x.length = 64 - path.length := by simp at hk; omega
    have hxl := nibblesValue_lt x fun m hm => hkn m (List.mem_append_right _ hm)
    rw [hx, hS] at hxl
    rw [nibblesValue_append, hx, hS] at h1 h2
    constructor
    · refine Nat.le_of_lt_succ ((Nat.div_lt_iff_lt_mul hpos).mpr ?_)
      rw [Nat.succ_mul]; omega
    · exact (Nat.le_div_iff_mul_le hpos).mpr (by omega)

theorem Filter.Meets.prefix {f : Filter} {p x : List UInt8} (h : f.Meets (p ++ x)) : f.Meets p := by
  obtain ⟨k, h1, h2, h3, h4⟩ := h
  exact ⟨k, h1, h2, (List.prefix_append p x).trans h3, h4⟩

theorem slice_bounds {filter : Option Filter} (h : Slice filter) : ∀ f, filter = some f → f.start ≤ f.stop ∧ f.stop ≤ maxU256 := by
  intro f hf
  cases h with
  | none => cases hf
  | some i c g hg => cases hf; exact new_bounds hg

theorem admits_iff {w : Walker} (h : Slice w.filter) {path : List UInt8} (hl : path.length ≤ 64) (hn : Nibble path) :
    w.admits path = some true ↔ Admits w.filter path := by
  unfold Walker.admits Admits
  cases hf : w.filter with
  | none => simp
  | some f =>
    obtain ⟨b, h1, h2⟩ := contains_iff (slice_bounds h f hf).1 hl hn
    simp [h1, h2]

theorem admits_total {w : Walker} {path : List UInt8} (hl : path.length ≤ 64) : w.admits path ≠ none := by
  unfold Walker.admits
  cases hf : w.filter with
  | none => simp
  | some f =>
    simp only [Filter.contains, padded]
    rw [if_neg (by omega), if_neg (by omega)]
    simp

theorem admits_nil {filter : Option Filter} (h : Slice filter) : Admits filter [] := by
  intro f hf
  obtain ⟨h1, h2⟩ := slice_bounds h f hf
  obtain ⟨x, hx, hxn, hxv⟩ := nibbles_exist 64 f.start (by unfold maxU256 at h2; omega)
  exact ⟨x, hx, hxn, List.nil_prefix, by omega, by omega⟩

theorem served_of {env : Env} {nodes : List Bytes} {w : Walker} (hf : Slice w.filter)
    (hst : ∀ b ∈ nodes, ∀ n, env.decode b = some n → Stored n)
    (hdb : ∀ b ∈ nodes, w.db (env.K b) = some (some b) ∨ (w.isPartial = true ∧ w.db (env.K b) = some none)) :
    Served env nodes w where
  stored := hst
  served := hdb
  total p hl := admits_total hl
  mono p x hl hn h := by
    rw [admits_iff hf (by simp; omega) hn] at h
    rw [admits_iff hf (by omega) fun m hm => hn m (List.mem_append_left _ hm)]
    intro f hff
    exact (h f hff).prefix

/-- A walk over a genuine trie from its root. -/
theorem walk_root {env : Env} {nodes : List Bytes} {root : Id} {t : PTrie} (hg : Genuine env nodes root t) (w : Walker)
    (hf : Slice w.filter)
    (hdb : ∀ b ∈ nodes, w.db (env.K b) = some (some b) ∨ (w.isPartial = true ∧ w.db (env.K b) = some none)) :
    ∃ c out, child env w [] [] (.hash root) = some c ∧ Visits env w c.toList out ∧
      (∀ q ∈ out, q.path.length ≤ 64 ∧ Nibble q.path ∧ q.proof.length ≤ q.path.length + 1 ∧ ∀ x ∈ q.proof, x ∈ nodes) ∧
      (∀ p b, (∃ q ∈ out, q.path = p ∧ q.proof.getLast? = some b) ↔
        StoredAt env (available env w.db nodes) (.hash root) p b ∧ Admits w.filter p) ∧
      (out.Pairwise fun a b => a.path < b.path) ∧ (∀ q ∈ out, ∃ b, q.proof.getLast? = some b) ∧
      ∀ q ∈ out, Good env root q := by
  have hs := served_of hf hg.stored hdb
  obtain ⟨c, out, h1, h2, h3, hgood⟩ := (walk_rep hs hg.commits).1 [] [] 64 (.hash root) hg.keys (fun _ h => (nomatch h)) (by simp)
  have hpath : ∀ p b, StoredAt env (available env w.db nodes) (.hash root) p b → p.length ≤ 64 ∧ Nibble p :=
    fun p b h => stored_path hs hg.commits hg.keys h
  have hlast : ∀ q ∈ out, ∃ b, q.proof.getLast? = some b := by
    intro q hq
    have hk : ∀ {s o : List Proof}, Visits env w s o → ∀ q ∈ o, ∃ b, q.proof.getLast? = some b := by
      intro s o hv
      induction hv with
      | nil => intro q hq; cases hq
      | cons p rest cs out hk _ ih =>
        intro q hq
        rcases List.mem_cons.mp hq with rfl | hq
        · unfold kids at hk
          split at hk
          · cases hk
          · next b hb => exact ⟨b, hb⟩
        · exact ih q hq
    exact hk h2 q hq
  have hex : ∀ p b, (∃ q ∈ out, q.path = p ∧ q.proof.getLast? = some b) ↔
      StoredAt env (available env w.db nodes) (.hash root) p b ∧ w.admits p = some true := by
    intro p b
    have := h3.exact p b
    simpa using this
  refine ⟨c, out, h1, h2, fun q hq => ?_, fun p b => ?_, h3.ordered, hlast,
    hgood root fun b hb => good_root (Node.hash.inj hb).symm⟩
  · obtain ⟨b, hb⟩ := hlast q hq
    obtain ⟨h4, _⟩ := (hex q.path b).mp ⟨q, hq, rfl, hb⟩
    obtain ⟨h5, h6⟩ := hpath _ _ h4
    obtain ⟨p, h7, h8, h9⟩ := h3.below q hq
    simp only [List.nil_append] at h7
    refine ⟨h5, h6, by rw [h7]; simpa [Nat.add_comm] using h8, fun x hx => ?_⟩
    rcases h9 x hx with h | h
    · cases h
    · exact h
  · rw [hex]
    constructor
    · rintro ⟨h4, h5⟩
      obtain ⟨h6, h7⟩ := hpath _ _ h4
      exact ⟨h4, (admits_iff hf h6 h7).mp h5⟩
    · rintro ⟨h4, h5⟩
      obtain ⟨h6, h7⟩ := hpath _ _ h4
      exact ⟨h4, (admits_iff hf h6 h7).mpr h5⟩

end Verif.TrieWalker
