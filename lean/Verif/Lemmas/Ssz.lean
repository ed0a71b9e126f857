import Verif.Model.Ssz
import Verif.Lemmas.Bytes

namespace Verif.Ssz

/-- Each fixed field has its length. -/
def Fits : List Field → List Bytes → Prop
  | [], [] => True
  | .fixed n :: fs, v :: vs => v.length = n ∧ Fits fs vs
  | .var :: fs, _ :: vs => Fits fs vs
  | _, _ => False

theorem fixedPart_length : ∀ {fs : List Field} {vs : List Bytes} {off : Nat}, Fits fs vs →
    (fixedPart fs vs off).length = headLen fs
  | [], [], _, _ => rfl
  | .fixed n :: fs, v :: vs, off, h => by
    simp only [fixedPart, headLen, Field.headLen, List.length_append, h.1,
      fixedPart_length (off := off) h.2]
  | .var :: fs, v :: vs, off, h => by
    have h : Fits fs vs := h
    simp only [fixedPart, headLen, Field.headLen, List.length_append, toLe_length,
      fixedPart_length (off := off + v.length) h]

/-- Slots expected when decoding an encoding whose variable part starts at `off`. -/
def slotsOf : List Field → List Bytes → Nat → List Slot
  | .fixed _ :: fs, v :: vs, off => .bytes v :: slotsOf fs vs off
  | .var :: fs, v :: vs, off => .offset off :: slotsOf fs vs (off + v.length)
  | _, _, _ => []

theorem register_fixedPart : ∀ {fs : List Field} {vs : List Bytes} {off prev n : Nat} {tail : Bytes},
    Fits fs vs → prev ≤ off → off + (varPart fs vs).length ≤ n → n < 2 ^ 32 →
    register n fs prev (fixedPart fs vs off ++ tail) = some (slotsOf fs vs off)
  | [], [], _, _, _, _, _, _, _, _ => rfl
  | .fixed k :: fs, v :: vs, off, prev, n, tail, hf, hp, hn, hb => by
    have hv : v.length = k := hf.1
    simp only [fixedPart, register, List.append_assoc]
    rw [if_pos (by simp; omega)]
    have e1 : (v ++ (fixedPart fs vs off ++ tail)).take k = v := by
      rw [← hv]; simp
    have e2 : (v ++ (fixedPart fs vs off ++ tail)).drop k = fixedPart fs vs off ++ tail := by
      rw [← hv]; simp
    rw [e1, e2, register_fixedPart hf.2 hp hn hb]
    rfl
  | .var :: fs, v :: vs, off, prev, n, tail, hf, hp, hn, hb => by
    simp only [varPart, List.length_append] at hn
    simp only [fixedPart, register, List.append_assoc]
    rw [if_pos (by simp)]
    have e1 : (toLe 4 off ++ (fixedPart fs vs (off + v.length) ++ tail)).take 4 = toLe 4 off := by
      rw [List.take_left' (by simp)]
    have e2 : (toLe 4 off ++ (fixedPart fs vs (off + v.length) ++ tail)).drop 4 =
        fixedPart fs vs (off + v.length) ++ tail := by
      rw [List.drop_left' (by simp)]
    have e3 : fromLe (toLe 4 off) = off := fromLe_toLe_of_lt (by omega)
    rw [e1, e2, e3, if_pos ⟨by omega, hp⟩]
    have hf' : Fits fs vs := hf
    rw [register_fixedPart hf' (by omega) (by omega) hb]
    rfl

theorem firstOffset_slotsOf : ∀ {fs : List Field} {vs : List Bytes} {off : Nat}, Fits fs vs →
    firstOffset (slotsOf fs vs off) = some off ∨
      (firstOffset (slotsOf fs vs off) = none ∧ varPart fs vs = [])
  | [], [], _, _ => Or.inr ⟨rfl, rfl⟩
  | .fixed _ :: fs, _ :: vs, off, h => firstOffset_slotsOf (fs := fs) (vs := vs) (off := off) h.2
  | .var :: _, _ :: _, _, _ => Or.inl rfl

theorem resolve_slotsOf : ∀ {fs : List Field} {vs : List Bytes} {off : Nat} {all pre : Bytes},
    Fits fs vs → all = pre ++ varPart fs vs → pre.length = off →
    resolve all (slotsOf fs vs off) = vs
  | [], [], _, _, _, _, _, _ => rfl
  | .fixed _ :: fs, v :: vs, off, all, pre, hf, ha, hp => by
    simp only [slotsOf, resolve]
    rw [resolve_slotsOf hf.2 ha hp]
  | .var :: fs, v :: vs, off, all, pre, hf, ha, hp => by
    have hf' : Fits fs vs := hf
    simp only [varPart] at ha
    simp only [slotsOf, resolve]
    have e1 : (firstOffset (slotsOf fs vs (off + v.length))).getD all.length - off = v.length := by
      rcases firstOffset_slotsOf (off := off + v.length) hf' with h | ⟨h, hv⟩
      · rw [h]; simp
      · rw [h, ha, hv]; simp; omega
    have e2 : (all.drop off).take v.length = v := by
      rw [ha, ← hp, List.drop_left, List.take_left]
    rw [e1, e2, resolve_slotsOf (pre := pre ++ v) hf' (by rw [ha, List.append_assoc])
      (by rw [List.length_append, hp])]

/-- Round trip of a container whose encoding is shorter than 4 GiB. -/
theorem decode_encodeContainer {fs : List Field} {vs : List Bytes} (hf : Fits fs vs)
    (hlen : (encodeContainer fs vs).length < 2 ^ 32) :
    decodeContainer fs (encodeContainer fs vs) = some vs := by
  have hfl := fixedPart_length (off := headLen fs) hf
  have hl : (encodeContainer fs vs).length = headLen fs + (varPart fs vs).length := by
    rw [encodeContainer, List.length_append, hfl]
  unfold decodeContainer
  have hr : register (encodeContainer fs vs).length fs 0 (encodeContainer fs vs) =
      some (slotsOf fs vs (headLen fs)) := by
    conv => lhs; arg 4; rw [encodeContainer]
    exact register_fixedPart hf (by omega) (by omega) hlen
  rw [hr]
  have hres : resolve (encodeContainer fs vs) (slotsOf fs vs (headLen fs)) = vs :=
    resolve_slotsOf hf rfl hfl
  rcases firstOffset_slotsOf (off := headLen fs) hf with h | ⟨h, hv⟩
  · simp only [h, hres, if_true]
  · simp only [h, hres]
    rw [if_pos (by rw [hl, hv]; simp)]

theorem firstOffset_ge {n : Nat} : ∀ {fs : List Field} {prev : Nat} {rem : Bytes} {slots : List Slot},
    register n fs prev rem = some slots → ∀ o, firstOffset slots = some o → prev ≤ o ∧ o ≤ n
  | [], prev, rem, slots, h, o, ho => by
    simp only [register, Option.some.injEq] at h; subst h; cases ho
  | .fixed k :: fs, prev, rem, slots, h, o, ho => by
    simp only [register] at h
    split at h
    · rw [Option.map_eq_some_iff] at h
      obtain ⟨t, ht, rfl⟩ := h
      exact firstOffset_ge ht o ho
    · cases h
  | .var :: fs, prev, rem, slots, h, o, ho => by
    simp only [register] at h
    split at h
    · split at h
      · next hc =>
        rw [Option.map_eq_some_iff] at h
        obtain ⟨t, ht, rfl⟩ := h
        simp only [firstOffset, Option.some.injEq] at ho
        omega
      · cases h
    · cases h

/-- Canonicity: from the registered slots the input is recovered. -/
theorem resolve_encode {all : Bytes} : ∀ {fs : List Field} {prev : Nat} {rem : Bytes}
    {slots : List Slot},
    register all.length fs prev rem = some slots →
    Fits fs (resolve all slots) ∧
    (∀ off, (firstOffset slots = some off ∨ firstOffset slots = none) →
      fixedPart fs (resolve all slots) off ++ rem.drop (headLen fs) = rem ∧
      headLen fs ≤ rem.length) ∧
    (∀ o, firstOffset slots = some o → varPart fs (resolve all slots) = all.drop o) ∧
    (firstOffset slots = none → varPart fs (resolve all slots) = [])
  | [], prev, rem, slots, h => by
    simp only [register, Option.some.injEq] at h
    subst h
    refine ⟨trivial, ?_, ?_, ?_⟩
    · intro off _; simp [fixedPart, headLen]
    · intro o ho; cases ho
    · intro _; rfl
  | .fixed k :: fs, prev, rem, slots, h => by
    simp only [register] at h
    split at h
    · next hk =>
      rw [Option.map_eq_some_iff] at h
      obtain ⟨t, ht, rfl⟩ := h
      obtain ⟨i1, i2, i3, i4⟩ := resolve_encode ht
      refine ⟨⟨by simp; omega, i1⟩, ?_, ?_, ?_⟩
      · intro off ho
        simp only [firstOffset] at ho
        obtain ⟨j1, j2⟩ := i2 off ho
        rw [List.length_drop] at j2
        refine ⟨?_, by simp only [headLen, Field.headLen]; omega⟩
        simp only [resolve, fixedPart, headLen, Field.headLen, List.append_assoc]
        rw [show rem.drop (k + headLen fs) = (rem.drop k).drop (headLen fs) by
          rw [List.drop_drop], j1, List.take_append_drop]
      · intro o ho; exact i3 o ho
      · intro ho; exact i4 ho
    · cases h
  | .var :: fs, prev, rem, slots, h => by
    simp only [register] at h
    split at h
    · next hk =>
      split at h
      · next hc =>
        rw [Option.map_eq_some_iff] at h
        obtain ⟨t, ht, rfl⟩ := h
        obtain ⟨i1, i2, i3, i4⟩ := resolve_encode ht
        have hge := firstOffset_ge ht
        refine ⟨?_, ?_, ?_, ?_⟩
        · simp only [resolve]; exact i1
        · intro off ho
          simp only [firstOffset, Option.some.injEq] at ho
          rcases ho with ho | ho
          · subst ho
            simp only [resolve, fixedPart, headLen, Field.headLen, List.append_assoc]
            -- the offset written for the next variable field is the one that was read
            have hnext : firstOffset t = some (fromLe (rem.take 4) +
                ((all.drop (fromLe (rem.take 4))).take
                  ((firstOffset t).getD all.length - fromLe (rem.take 4))).length) ∨
                firstOffset t = none := by
              cases hft : firstOffset t with
              | none => right; rfl
              | some o =>
                left
                have := hge o hft
                simp only [Option.getD_some, List.length_take, List.length_drop]
                congr 1; omega
            obtain ⟨j1, j2⟩ := i2 _ hnext
            rw [List.length_drop] at j2
            refine ⟨?_, by omega⟩
            rw [show rem.drop (4 + headLen fs) = (rem.drop 4).drop (headLen fs) by
              rw [List.drop_drop], j1]
            have : toLe 4 (fromLe (rem.take 4)) = rem.take 4 := by
              have := toLe_fromLe (rem.take 4)
              rw [List.length_take, Nat.min_eq_left hk] at this
              exact this
            rw [this, List.take_append_drop]
          · cases ho
        · intro o ho
          simp only [firstOffset, Option.some.injEq] at ho
          subst ho
          simp only [resolve, varPart]
          cases hft : firstOffset t with
          | none =>
            rw [i4 hft]
            simp only [Option.getD_none, List.append_nil]
            rw [List.take_of_length_le (by rw [List.length_drop]; exact Nat.le_refl _)]
          | some o2 =>
            have := hge o2 hft
            rw [i3 o2 hft]
            simp only [Option.getD_some]
            conv => rhs; rw [← List.take_append_drop (o2 - fromLe (rem.take 4))
              (all.drop (fromLe (rem.take 4)))]
            rw [List.drop_drop]
            congr 2; omega
        · intro ho; cases ho
      · cases h
    · cases h

/-- What a successful decode says: the fields have the right sizes and encoding them gives back
exactly the input (the format has one encoding per value and no ignored bytes). -/
theorem encode_decodeContainer {fs : List Field} {bs : Bytes} {vs : List Bytes}
    (h : decodeContainer fs bs = some vs) : Fits fs vs ∧ encodeContainer fs vs = bs := by
  unfold decodeContainer at h
  split at h
  · cases h
  · next slots hr =>
    obtain ⟨h1, h2, h3, h4⟩ := resolve_encode hr
    split at h
    · next o ho =>
      split at h
      · next heq =>
        simp only [Option.some.injEq] at h
        subst h
        refine ⟨h1, ?_⟩
        obtain ⟨j1, -⟩ := h2 o (Or.inl ho)
        unfold encodeContainer
        rw [h3 o ho, ← heq]
        rw [← heq] at j1
        exact j1
      · cases h
    · next ho =>
      split at h
      · next heq =>
        simp only [Option.some.injEq] at h
        subst h
        refine ⟨h1, ?_⟩
        obtain ⟨j1, -⟩ := h2 (headLen fs) (Or.inr ho)
        unfold encodeContainer
        rw [h4 ho, List.append_nil]
        rw [heq, List.drop_length, List.append_nil] at j1
        rw [heq]; exact j1
      · cases h

theorem fits_var_map (vs : List Bytes) : Fits (vs.map fun _ => Field.var) vs := by
  induction vs with
  | nil => trivial
  | cons v vs ih => exact ih

theorem headLen_replicate_var (k : Nat) : headLen (List.replicate k Field.var) = 4 * k := by
  induction k with
  | zero => rfl
  | succ k ih => rw [List.replicate_succ, headLen, ih, Field.headLen]; omega

theorem map_var_eq_replicate (vs : List Bytes) :
    (vs.map fun _ => Field.var) = List.replicate vs.length Field.var := by
  rw [List.map_const']

theorem fits_replicate_length : ∀ {k : Nat} {vs : List Bytes},
    Fits (List.replicate k Field.var) vs → vs.length = k
  | 0, [], _ => rfl
  | 0, _ :: _, h => by cases h
  | k + 1, [], h => by cases h
  | k + 1, v :: vs, h => by
    have : Fits (List.replicate k Field.var) vs := h
    simp [fits_replicate_length this]

theorem encodeVarList_length (vs : List Bytes) :
    (encodeVarList vs).length = 4 * vs.length + (vs.map List.length).sum := by
  unfold encodeVarList encodeContainer
  rw [List.length_append, fixedPart_length (fits_var_map vs), map_var_eq_replicate,
    headLen_replicate_var]
  congr 1
  have : ∀ vs : List Bytes, (varPart (List.replicate vs.length Field.var) vs).length =
      (vs.map List.length).sum := by
    intro vs
    induction vs with
    | nil => rfl
    | cons v vs ih =>
      simp only [List.length_cons, List.replicate_succ, varPart, List.length_append, ih,
        List.map_cons, List.sum_cons]
  exact this vs

theorem decode_encodeVarList {vs : List Bytes} {max : Nat} (hm : vs.length ≤ max)
    (hlen : (encodeVarList vs).length < 2 ^ 32) : decodeVarList max (encodeVarList vs) = some vs := by
  cases vs with
  | nil => rfl
  | cons v vs =>
    have hl := encodeVarList_length (v :: vs)
    unfold decodeVarList
    have hfirst : (encodeVarList (v :: vs)).take 4 = toLe 4 (4 * (v :: vs).length) := by
      unfold encodeVarList encodeContainer
      have : headLen ((v :: vs).map fun _ => Field.var) = 4 * (v :: vs).length := by
        rw [map_var_eq_replicate, headLen_replicate_var]
      rw [this]
      simp only [List.map_cons, fixedPart, List.append_assoc]
      rw [List.take_left' (by simp)]
    have hval : fromLe ((encodeVarList (v :: vs)).take 4) = 4 * (v :: vs).length := by
      rw [hfirst]
      exact fromLe_toLe_of_lt (by omega)
    simp only [List.length_cons] at hl hval hm
    rw [if_neg (by intro h; rw [h] at hl; simp at hl; omega), if_neg (by omega)]
    simp only [hval]
    rw [if_neg (by omega), if_neg (by omega)]
    have : 4 * (vs.length + 1) / 4 = vs.length + 1 := by omega
    rw [this]
    have e : List.replicate (vs.length + 1) Field.var = (v :: vs).map fun _ => Field.var := by
      rw [map_var_eq_replicate]; rfl
    rw [e]
    exact decode_encodeContainer (fits_var_map _) hlen

theorem encode_decodeVarList {max : Nat} {bs : Bytes} {vs : List Bytes}
    (h : decodeVarList max bs = some vs) : encodeVarList vs = bs ∧ vs.length ≤ max := by
  unfold decodeVarList at h
  split at h
  · next hb =>
    simp only [Option.some.injEq] at h
    subst h; subst hb
    exact ⟨rfl, Nat.zero_le _⟩
  · split at h
    · cases h
    · simp only at h
      split at h
      · cases h
      · split at h
        · cases h
        · next h1 h2 =>
          obtain ⟨hf, he⟩ := encode_decodeContainer h
          have hl := fits_replicate_length hf
          refine ⟨?_, by omega⟩
          unfold encodeVarList
          rw [map_var_eq_replicate, hl]; exact he

theorem chunks_spec (n : Nat) : ∀ k bs, bs.length = n * k →
    (chunks n k bs).flatten = bs ∧ (chunks n k bs).length = k ∧ ∀ c ∈ chunks n k bs, c.length = n := by
  intro k
  induction k with
  | zero => intro bs h; simp at h; subst h; simp [chunks]
  | succ k ih =>
    intro bs h
    rw [Nat.mul_succ] at h
    have := ih (bs.drop n) (by rw [List.length_drop]; omega)
    obtain ⟨h1, h2, h3⟩ := this
    refine ⟨?_, ?_, ?_⟩
    · simp [chunks, h1]
    · simp [chunks, h2]
    · intro c hc
      simp only [chunks, List.mem_cons] at hc
      rcases hc with rfl | hc
      · rw [List.length_take]; omega
      · exact h3 c hc

theorem chunks_flatten (n : Nat) (vs : List Bytes) (h : ∀ v ∈ vs, v.length = n) :
    chunks n vs.length vs.flatten = vs := by
  induction vs with
  | nil => rfl
  | cons v vs ih =>
    have hv := h v (by simp)
    simp only [List.length_cons, chunks, List.flatten_cons]
    rw [List.take_left' hv, List.drop_left' hv, ih (fun x hx => h x (by simp [hx]))]

theorem flatten_length (n : Nat) (vs : List Bytes) (h : ∀ v ∈ vs, v.length = n) :
    vs.flatten.length = n * vs.length := by
  induction vs with
  | nil => simp
  | cons v vs ih =>
    rw [List.flatten_cons, List.length_append, h v (by simp), ih (fun x hx => h x (by simp [hx])),
      List.length_cons, Nat.mul_succ]
    omega

theorem decode_encodeFixedList {n max : Nat} (hn : 0 < n) {vs : List Bytes}
    (hv : ∀ v ∈ vs, v.length = n) (hm : vs.length ≤ max) :
    decodeFixedList n max (encodeFixedList vs) = some vs := by
  unfold decodeFixedList encodeFixedList
  have hl := flatten_length n vs hv
  rw [hl, if_neg (by simp), Nat.mul_div_cancel_left _ hn, if_neg (by omega), chunks_flatten n vs hv]

theorem encode_decodeFixedList {n max : Nat} {bs : Bytes} {vs : List Bytes}
    (h : decodeFixedList n max bs = some vs) :
    encodeFixedList vs = bs ∧ vs.length ≤ max ∧ ∀ v ∈ vs, v.length = n := by
  unfold decodeFixedList at h
  split at h
  · cases h
  · next h1 =>
    split at h
    · cases h
    · next h2 =>
      simp only [Option.some.injEq] at h
      have hl : bs.length = n * (bs.length / n) := by
        have := Nat.div_add_mod bs.length n
        omega
      obtain ⟨c1, c2, c3⟩ := chunks_spec n _ bs hl
      subst h
      exact ⟨c1, by omega, c3⟩

end Verif.Ssz
