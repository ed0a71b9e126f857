import Verif.Model.SszTypes
import Verif.Lemmas.ContentKey

namespace Verif.SszT
open Verif.Ssz Verif.ContentKey

/-- The two directions of a codec and the size of fixed-size values. -/
structure Sound {α} (c : Codec α) : Prop where
  rt : ∀ x, (c.enc x).length < 2 ^ 32 → c.dec (c.enc x) = some x
  canon : ∀ b x, c.dec b = some x → c.enc x = b
  fixed : ∀ x n, c.field = .fixed n → (c.enc x).length = n

theorem sound_of_lawful {α} {c : Codec α} (h : Lawful c fun _ => True) : Sound c where
  rt x _ := h.rt x trivial
  canon b x hx := (h.canon b x hx).2
  fixed := h.fixed

theorem sound_hash : Sound hash := sound_of_lawful lawful_hash
theorem sound_u64 : Sound u64 := sound_of_lawful lawful_u64
theorem sound_u8 : Sound u8 := sound_of_lawful lawful_u8

theorem sound_bytesN (n : Nat) : Sound (bytesN n) where
  rt x _ := by simp only [bytesN]; rw [dif_pos x.2]
  canon b x h := by
    simp only [bytesN] at h ⊢
    split at h
    · cases h; rfl
    · cases h
  fixed x m h := by cases h; exact x.2

theorem sound_byteList (n : Nat) : Sound (byteList n) where
  rt x _ := by simp only [byteList]; rw [dif_pos x.2]
  canon b x h := by
    simp only [byteList] at h ⊢
    split at h
    · cases h; rfl
    · cases h
  fixed x m h := by cases h

theorem sound_u256 : Sound u256 where
  rt x _ := by
    simp only [u256, decodeUint, toLe_length, if_true]
    rw [fromLe_toLe_of_lt (by have := x.isLt; omega)]
    simp
  canon b x h := by
    simp only [u256, decodeUint] at h ⊢
    split at h
    · next hb =>
      simp only [Option.map_some, Option.some.injEq] at h
      subst h
      have hlt : fromLe b < 256 ^ b.length := fromLe_lt b
      rw [hb] at hlt
      rw [BitVec.toNat_ofNat, Nat.mod_eq_of_lt (by
        have : (256 : Nat) ^ 32 = 2 ^ 256 := by decide
        omega)]
      have := toLe_fromLe b
      rw [hb] at this
      exact this
    · cases h
  fixed x m h := by cases h; simp [u256]

theorem decAll_enc {α} {c : Codec α} (hc : Sound c) :
    ∀ l : List α, (∀ x ∈ l, (c.enc x).length < 2 ^ 32) → decAll c (l.map c.enc) = some l
  | [], _ => rfl
  | x :: l, h => by
    simp only [List.map_cons, decAll]
    rw [hc.rt x (h x (by simp)), decAll_enc hc l (fun y hy => h y (by simp [hy]))]
    rfl

theorem enc_decAll {α} {c : Codec α} (hc : Sound c) :
    ∀ {bs : List Bytes} {l : List α}, decAll c bs = some l → l.map c.enc = bs
  | [], l, h => by cases h; rfl
  | b :: bs, l, h => by
    simp only [decAll] at h
    split at h
    · cases h
    · next x hx =>
      cases hr : decAll c bs with
      | none => rw [hr] at h; cases h
      | some l' =>
        rw [hr] at h
        cases h
        rw [List.map_cons, hc.canon b x hx, enc_decAll hc hr]

theorem toVec_some {α} {n : Nat} {l : List α} {x : Vec α n} (h : toVec n l = some x) : x.1 = l := by
  unfold toVec at h
  split at h
  · cases h; rfl
  · cases h
theorem toVec_self {α} {n : Nat} (x : Vec α n) : toVec n x.1 = some x := by
  unfold toVec; rw [dif_pos x.2]
theorem toBList_some {α} {n : Nat} {l : List α} {x : BList α n} (h : toBList n l = some x) : x.1 = l := by
  unfold toBList at h
  split at h
  · cases h; rfl
  · cases h
theorem toBList_self {α} {n : Nat} (x : BList α n) : toBList n x.1 = some x := by
  unfold toBList; rw [dif_pos x.2]

theorem length_le_flatten {b : Bytes} : ∀ {l : List Bytes}, b ∈ l → b.length ≤ l.flatten.length
  | [], h => by cases h
  | a :: l, h => by
    rw [List.flatten_cons, List.length_append]
    rcases List.mem_cons.mp h with rfl | h
    · omega
    · have := length_le_flatten h; omega

theorem enc_lengths {α} {c : Codec α} (hc : Sound c) {k : Nat} (hf : c.field = .fixed k) (l : List α) :
    ∀ v ∈ l.map c.enc, v.length = k := by
  intro v hv
  obtain ⟨x, _, rfl⟩ := List.mem_map.mp hv
  exact hc.fixed x k hf

theorem sound_vector {α} {c : Codec α} (hc : Sound c) {k : Nat} (hf : c.field = .fixed k) (n : Nat) :
    Sound (vector c n) where
  rt x hlen := by
    simp only [vector, hf, Field.headLen] at hlen ⊢
    have hl := flatten_length k _ (enc_lengths hc hf x.1)
    rw [List.length_map, x.2] at hl
    rw [if_pos hl]
    have := chunks_flatten k _ (enc_lengths hc hf x.1)
    rw [List.length_map, x.2] at this
    rw [this, decAll_enc hc x.1 fun y hy =>
      Nat.lt_of_le_of_lt (length_le_flatten (List.mem_map_of_mem hy)) hlen]
    exact toVec_self x
  canon b x h := by
    simp only [vector, hf, Field.headLen] at h ⊢
    split at h
    · next hb =>
      obtain ⟨l, h1, h2⟩ := Option.bind_eq_some_iff.mp h
      rw [toVec_some h2, enc_decAll hc h1]
      exact (chunks_spec k n b hb).1
    · cases h
  fixed x m h := by
    simp only [vector, hf, Field.headLen] at h ⊢
    cases h
    rw [flatten_length k _ (enc_lengths hc hf x.1), List.length_map, x.2]

theorem sound_list {α} {c : Codec α} (hc : Sound c) {k : Nat} (hk : 0 < k) (hf : c.field = .fixed k)
    (n : Nat) : Sound (list c n) where
  rt x hlen := by
    simp only [list, hf, Field.headLen] at hlen ⊢
    rw [decode_encodeFixedList hk (enc_lengths hc hf x.1) (by rw [List.length_map]; exact x.2)]
    rw [Option.bind_some, decAll_enc hc x.1 fun y hy =>
      Nat.lt_of_le_of_lt (length_le_flatten (List.mem_map_of_mem hy)) hlen]
    exact toBList_self x
  canon b x h := by
    simp only [list, hf, Field.headLen] at h ⊢
    obtain ⟨l, h1, h2⟩ := Option.bind_eq_some_iff.mp h
    obtain ⟨vs, h3, h4⟩ := Option.bind_eq_some_iff.mp h1
    rw [toBList_some h2, enc_decAll hc h4]
    exact (encode_decodeFixedList h3).1
  fixed x m h := by cases h

theorem length_le_encodeVarList {b : Bytes} {l : List Bytes} (h : b ∈ l) :
    b.length ≤ (encodeVarList l).length := by
  rw [encodeVarList_length]
  have := length_le_flatten h
  rw [List.length_flatten] at this
  omega

theorem sound_varList {α} {c : Codec α} (hc : Sound c) (n : Nat) : Sound (varList c n) where
  rt x hlen := by
    simp only [varList] at hlen ⊢
    rw [decode_encodeVarList (by rw [List.length_map]; exact x.2) hlen]
    rw [Option.bind_some, decAll_enc hc x.1 fun y hy =>
      Nat.lt_of_le_of_lt (length_le_encodeVarList (List.mem_map_of_mem hy)) hlen]
    exact toBList_self x
  canon b x h := by
    simp only [varList] at h ⊢
    obtain ⟨l, h1, h2⟩ := Option.bind_eq_some_iff.mp h
    obtain ⟨vs, h3, h4⟩ := Option.bind_eq_some_iff.mp h1
    rw [toBList_some h2, enc_decAll hc h4]
    exact (encode_decodeVarList h3).1
  fixed x m h := by cases h

/-- The same for the fields of a structure. -/
structure RecSound {α} (r : Rec α) : Prop where
  fits : ∀ x, Fits r.fields (r.enc x)
  rt : ∀ x, (∀ v ∈ r.enc x, v.length < 2 ^ 32) → r.dec (r.enc x) = some x
  canon : ∀ vs x, r.dec vs = some x → r.enc x = vs

theorem recSound_nil : RecSound Rec.nil where
  fits _ := trivial
  rt _ _ := rfl
  canon vs x h := by
    cases vs with
    | nil => rfl
    | cons => cases h

theorem recSound_cons {α β} {c : Codec α} {r : Rec β} (hc : Sound c) (hr : RecSound r) :
    RecSound (Rec.cons c r) where
  fits x := by
    simp only [Rec.cons]
    cases hf : c.field with
    | fixed n => exact ⟨hc.fixed x.1 n hf, hr.fits x.2⟩
    | var => exact hr.fits x.2
  rt x h := by
    simp only [Rec.cons] at h ⊢
    rw [hc.rt x.1 (h _ (by simp)), hr.rt x.2 (fun v hv => h v (by simp [hv]))]
    rfl
  canon vs x h := by
    cases vs with
    | nil => cases h
    | cons b bs =>
      simp only [Rec.cons] at h ⊢
      split at h
      · cases h
      · next y hy =>
        cases hd : r.dec bs with
        | none => rw [hd] at h; cases h
        | some z =>
          rw [hd] at h
          cases h
          rw [hc.canon b _ hy, hr.canon bs _ hd]

theorem length_le_container : ∀ {fs : List Field} {vs : List Bytes} {off : Nat}, Fits fs vs →
    ∀ v ∈ vs, v.length ≤ (fixedPart fs vs off).length + (varPart fs vs).length
  | [], [], _, _, _, hv => by cases hv
  | .fixed n :: fs, w :: vs, off, h, v, hv => by
    simp only [fixedPart, varPart, List.length_append]
    rcases List.mem_cons.mp hv with rfl | hv
    · omega
    · have := length_le_container (off := off) h.2 v hv; omega
  | .var :: fs, w :: vs, off, h, v, hv => by
    simp only [fixedPart, varPart, List.length_append]
    rcases List.mem_cons.mp hv with rfl | hv
    · omega
    · have := length_le_container (off := off + w.length) (show Fits fs vs from h) v hv; omega
  | [], _ :: _, _, h, _, _ => by cases h
  | .fixed _ :: _, [], _, h, _, _ => by cases h
  | .var :: _, [], _, h, _, _ => by cases h

theorem varPart_all_fixed : ∀ {fs : List Field} {vs : List Bytes}, fs.all (fun f => f != .var) = true →
    varPart fs vs = []
  | [], _, _ => by simp [varPart]
  | .fixed _ :: _, [], _ => by simp [varPart]
  | .fixed n :: fs, v :: vs, h => by
    simp only [varPart]
    exact varPart_all_fixed (by simpa using h)
  | .var :: _, _, h => by simp at h

theorem sound_container {α β} {r : Rec α} (hr : RecSound r) {f : α → β} {g : β → α}
    (hfg : ∀ y, f (g y) = y) (hgf : ∀ x, g (f x) = x) : Sound (container r f g) where
  rt x hlen := by
    simp only [container] at hlen ⊢
    rw [decode_encodeContainer (hr.fits _) hlen]
    have := hr.rt (g x) fun v hv => by
      have := length_le_container (off := headLen r.fields) (hr.fits (g x)) v hv
      rw [encodeContainer, List.length_append] at hlen
      omega
    simp only [this, Option.map_some, hfg]
  canon b x h := by
    simp only [container] at h ⊢
    split at h
    · cases h
    · next vs hd =>
      cases hr' : r.dec vs with
      | none => rw [hr'] at h; cases h
      | some y =>
        rw [hr'] at h
        cases h
        rw [hgf, hr.canon vs y hr']
        exact (encode_decodeContainer hd).2
  fixed x n h := by
    simp only [container, containerField] at h ⊢
    split at h
    · next ha =>
      cases h
      rw [encodeContainer, List.length_append, fixedPart_length (hr.fits _), varPart_all_fixed ha]
      rfl
    · cases h

end Verif.SszT
