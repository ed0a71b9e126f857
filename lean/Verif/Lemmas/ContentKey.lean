import Verif.Model.ContentKey
import Verif.Lemmas.Ssz
import Verif.Lemmas.Wire
import Verif.Lemmas.Distance
import Verif.Props.Nibbles

namespace Verif.ContentKey
open Verif.Ssz

/-- A codec that round-trips the values satisfying `P`, accepts only encodings of such values, and
whose encodings have the declared length when the field is fixed. -/
structure Lawful {α} (c : Codec α) (P : α → Prop) : Prop where
  rt : ∀ x, P x → c.dec (c.enc x) = some x
  canon : ∀ b x, c.dec b = some x → P x ∧ c.enc x = b
  fixed : ∀ x n, c.field = .fixed n → (c.enc x).length = n

theorem lawful_hash : Lawful hash (fun _ => True) where
  rt x _ := by
    have : x.bytes.length = 32 := by simp [Id.bytes]
    simp only [hash, this, if_true, Id.fromBe_bytes, BitVec.ofNat_toNat, BitVec.setWidth_eq]
  canon b x h := by
    simp only [hash] at h ⊢
    split at h
    · next hl =>
      simp only [Option.some.injEq] at h
      subst h
      refine ⟨trivial, ?_⟩
      have hlt := fromBe_lt b
      rw [hl] at hlt
      rw [Id.bytes, BitVec.toNat_ofNat, Nat.mod_eq_of_lt (by simpa using hlt), ← hl, toBe_fromBe]
    · cases h
  fixed x n h := by cases h; simp [hash, Id.bytes]

theorem lawful_u64 : Lawful u64 (fun _ => True) where
  rt x _ := by
    simp only [u64, decodeUint, toLe_length, if_true]
    rw [fromLe_toLe_of_lt (by have := x.toNat_lt; omega)]
    simp
  canon b x h := by
    simp only [u64, decodeUint] at h ⊢
    split at h
    · next hl =>
      simp only [Option.map_some, Option.some.injEq] at h
      subst h
      refine ⟨trivial, ?_⟩
      have hlt := fromLe_lt b
      rw [hl] at hlt
      rw [UInt64.toNat_ofNat', Nat.mod_eq_of_lt (by simpa using hlt), ← hl, toLe_fromLe]
    · cases h
  fixed x n h := by cases h; simp [u64]

theorem lawful_u8 : Lawful u8 (fun _ => True) where
  rt x _ := by simp [u8, decodeUint, fromLe]
  canon b x h := by
    simp only [u8, decodeUint] at h ⊢
    split at h
    · next hl =>
      match b, hl, h with
      | [y], _, h =>
        simp only [Option.map_some, Option.some.injEq, fromLe] at h
        simp at h
        exact ⟨trivial, by rw [h]⟩
    · cases h
  fixed x n h := by cases h; simp [u8]

theorem lawful_path : Lawful path Props.IsPath where
  rt x h := Props.C08_roundtrip x h
  canon b x h := Props.C08_canonical b x h
  fixed x n h := by cases h

theorem fits_cons {α} {c : Codec α} {P} (hc : Lawful c P) (x : α) {fs : List Field} {vs : List Bytes}
    (h : Fits fs vs) : Fits (c.field :: fs) (c.enc x :: vs) := by
  cases hf : c.field with
  | fixed n => exact ⟨hc.fixed x n hf, h⟩
  | var => exact h

theorem fits_nil : Fits [] [] := trivial

theorem dec1_enc1 {α} {a : Codec α} {P} (ha : Lawful a P) {x : α} (hx : P x)
    (hl : (enc1 a x).length < 2 ^ 32) : dec1 a (enc1 a x) = some x := by
  unfold dec1 enc1 at *
  rw [decode_encodeContainer (fits_cons ha x fits_nil) hl]
  exact ha.rt x hx

theorem enc1_dec1 {α} {a : Codec α} {P} (ha : Lawful a P) {bs : Bytes} {x : α}
    (h : dec1 a bs = some x) : P x ∧ enc1 a x = bs := by
  unfold dec1 at h
  cases hd : decodeContainer [a.field] bs with
  | none => rw [hd] at h; cases h
  | some vs =>
    rw [hd] at h
    have he := (encode_decodeContainer hd).2
    match vs, h, he with
    | [b], h, he =>
      have h : a.dec b = some x := h
      obtain ⟨h1, h2⟩ := ha.canon b x h
      exact ⟨h1, by rw [enc1, h2]; exact he⟩

theorem dec2_enc2 {α β} {a : Codec α} {b : Codec β} {P Q} (ha : Lawful a P) (hb : Lawful b Q)
    {x : α} {y : β} (hx : P x) (hy : Q y) (hl : (enc2 a b x y).length < 2 ^ 32) :
    dec2 a b (enc2 a b x y) = some (x, y) := by
  unfold dec2 enc2 at *
  rw [decode_encodeContainer (fits_cons ha x (fits_cons hb y fits_nil)) hl]
  simp only [Option.bind_eq_bind, Option.bind_some, ha.rt x hx, hb.rt y hy]

theorem enc2_dec2 {α β} {a : Codec α} {b : Codec β} {P Q} (ha : Lawful a P) (hb : Lawful b Q)
    {bs : Bytes} {x : α} {y : β} (h : dec2 a b bs = some (x, y)) :
    P x ∧ Q y ∧ enc2 a b x y = bs := by
  unfold dec2 at h
  cases hd : decodeContainer [a.field, b.field] bs with
  | none => rw [hd] at h; cases h
  | some vs =>
    rw [hd] at h
    have he := (encode_decodeContainer hd).2
    match vs, h, he with
    | [u, v], h, he =>
      simp only [Option.bind_eq_bind, Option.bind_some] at h
      cases hu : a.dec u with
      | none => simp [hu] at h
      | some x' =>
        simp only [hu, Option.bind_some] at h
        cases hv : b.dec v with
        | none => simp [hv] at h
        | some y' =>
          simp only [hv, Option.bind_some, Option.some.injEq, Prod.mk.injEq] at h
          obtain ⟨rfl, rfl⟩ := h
          obtain ⟨h1, h2⟩ := ha.canon u _ hu
          obtain ⟨h3, h4⟩ := hb.canon v _ hv
          exact ⟨h1, h3, by rw [enc2, h2, h4]; exact he⟩

theorem dec3_enc3 {α β γ} {a : Codec α} {b : Codec β} {c : Codec γ} {P Q R} (ha : Lawful a P)
    (hb : Lawful b Q) (hc : Lawful c R) {x : α} {y : β} {z : γ} (hx : P x) (hy : Q y) (hz : R z)
    (hl : (enc3 a b c x y z).length < 2 ^ 32) :
    dec3 a b c (enc3 a b c x y z) = some (x, y, z) := by
  unfold dec3 enc3 at *
  rw [decode_encodeContainer (fits_cons ha x (fits_cons hb y (fits_cons hc z fits_nil))) hl]
  simp only [Option.bind_eq_bind, Option.bind_some, ha.rt x hx, hb.rt y hy, hc.rt z hz]

theorem enc3_dec3 {α β γ} {a : Codec α} {b : Codec β} {c : Codec γ} {P Q R} (ha : Lawful a P)
    (hb : Lawful b Q) (hc : Lawful c R) {bs : Bytes} {x : α} {y : β} {z : γ}
    (h : dec3 a b c bs = some (x, y, z)) : P x ∧ Q y ∧ R z ∧ enc3 a b c x y z = bs := by
  unfold dec3 at h
  cases hd : decodeContainer [a.field, b.field, c.field] bs with
  | none => rw [hd] at h; cases h
  | some vs =>
    rw [hd] at h
    have he := (encode_decodeContainer hd).2
    match vs, h, he with
    | [u, v, w], h, he =>
      simp only [Option.bind_eq_bind, Option.bind_some] at h
      cases hu : a.dec u with
      | none => simp [hu] at h
      | some x' =>
        simp only [hu, Option.bind_some] at h
        cases hv : b.dec v with
        | none => simp [hv] at h
        | some y' =>
          simp only [hv, Option.bind_some] at h
          cases hw : c.dec w with
          | none => simp [hw] at h
          | some z' =>
            simp only [hw, Option.bind_some, Option.some.injEq, Prod.mk.injEq] at h
            obtain ⟨rfl, rfl, rfl⟩ := h
            obtain ⟨h1, h2⟩ := ha.canon u _ hu
            obtain ⟨h3, h4⟩ := hb.canon v _ hv
            obtain ⟨h5, h6⟩ := hc.canon w _ hw
            exact ⟨h1, h3, h5, by rw [enc3, h2, h4, h6]; exact he⟩

theorem enc1_hash_length (h : Id) : (enc1 hash h).length = 32 := by
  rw [enc1, Wire.varPart_length_le (fits_cons lawful_hash h fits_nil)]; rfl
theorem enc1_u64_length (n : UInt64) : (enc1 u64 n).length = 8 := by
  rw [enc1, Wire.varPart_length_le (fits_cons lawful_u64 n fits_nil)]; rfl
theorem enc2_u64_length (n m : UInt64) : (enc2 u64 u64 n m).length = 16 := by
  rw [enc2, Wire.varPart_length_le (fits_cons lawful_u64 n (fits_cons lawful_u64 m fits_nil))]; rfl
theorem enc2_hash_u8_length (h : Id) (a : UInt8) : (enc2 hash u8 h a).length = 33 := by
  rw [enc2, Wire.varPart_length_le (fits_cons lawful_hash h (fits_cons lawful_u8 a fits_nil))]; rfl
theorem enc2_hash_hash_length (h g : Id) : (enc2 hash hash h g).length = 64 := by
  rw [enc2, Wire.varPart_length_le (fits_cons lawful_hash h (fits_cons lawful_hash g fits_nil))]; rfl
theorem enc2_path_hash_length (p : Bytes) (g : Id) :
    (enc2 path hash p g).length = 36 + (Nibbles.encode p).length := by
  rw [enc2, Wire.varPart_length_le (fits_cons lawful_path p (fits_cons lawful_hash g fits_nil))]
  simp [path, hash, headLen, Field.headLen, varPart]
theorem enc3_length (a : Id) (p : Bytes) (g : Id) :
    (enc3 hash path hash a p g).length = 68 + (Nibbles.encode p).length := by
  rw [enc3, Wire.varPart_length_le (fits_cons lawful_hash a
    (fits_cons lawful_path p (fits_cons lawful_hash g fits_nil)))]
  simp [path, hash, headLen, Field.headLen, varPart]

theorem packAll_length_le : ∀ ns : Bytes, (Nibbles.packAll ns).length ≤ ns.length
  | [] => by simp [Nibbles.packAll]
  | [_] => by simp [Nibbles.packAll]
  | a :: b :: l => by
    have := packAll_length_le l
    simp only [Nibbles.packAll, List.length_cons]; omega

theorem encode_path_length (ns : Bytes) : (Nibbles.encode ns).length ≤ ns.length + 1 := by
  unfold Nibbles.encode
  split
  · have := packAll_length_le ns; simp only [List.length_cons]; omega
  · split
    · simp
    · next n r _ => have := packAll_length_le r; simp only [List.length_cons]; omega

end Verif.ContentKey
