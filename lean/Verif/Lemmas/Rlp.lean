import Verif.Lemmas.Bytes
import Verif.Lemmas.Versions
import Verif.Props.ProtocolInfoSpec

namespace Verif.Rlp
open Verif.RlpFormat

theorem head_pos : ∀ {bs : Bytes}, bs ≠ [] → bs.head? ≠ some 0 → 256 ^ (bs.length - 1) ≤ fromBe bs
  | [], h, _ => absurd rfl h
  | b :: bs, _, h => by
    rw [fromBe_cons]
    have hb : b ≠ 0 := fun e => h (by rw [e]; rfl)
    have hb : 1 ≤ b.toNat := by
      rcases Nat.eq_zero_or_pos b.toNat with h0 | h0
      · exact absurd (UInt8.toNat_inj.mp (by simpa using h0)) hb
      · exact h0
    have := Nat.mul_le_mul_right (256 ^ bs.length) hb
    simp only [List.length_cons, Nat.add_sub_cancel]
    omega

theorem trimmed_zero : trimmed 0 = [] := by unfold trimmed; rfl

theorem trimmed_pos {v : Nat} (h : v ≠ 0) : trimmed v = trimmed (v / 256) ++ [UInt8.ofNat (v % 256)] := by
  rw [trimmed, if_neg h]

theorem trimmed_of : ∀ (n : Nat) (bs : Bytes), bs.length = n → bs.head? ≠ some 0 → bs = trimmed (fromBe bs)
  | 0, bs, hn, _ => by
    cases bs with
    | nil => exact trimmed_zero.symm
    | cons _ _ => cases hn
  | n + 1, bs, hn, hh => by
    have hne : bs ≠ [] := by intro e; rw [e] at hn; cases hn
    have hp := head_pos hne hh
    have hpos : fromBe bs ≠ 0 := by
      have : 0 < 256 ^ (bs.length - 1) := Nat.pow_pos (by decide)
      omega
    rw [trimmed_pos hpos]
    have hd := List.dropLast_concat_getLast hne
    have hl : bs.dropLast.length = n := by rw [List.length_dropLast, hn]; rfl
    generalize bs.dropLast = i at hd hl
    generalize bs.getLast hne = x at hd
    subst hd
    rw [fromBe_append_singleton]
    have hx := x.toNat_lt
    have e1 : (fromBe i * 256 + x.toNat) / 256 = fromBe i := by omega
    have e2 : (fromBe i * 256 + x.toNat) % 256 = x.toNat := by omega
    rw [e1, e2, UInt8.ofNat_toNat]
    congr 1
    refine trimmed_of n i hl ?_
    intro h
    apply hh
    cases i with
    | nil => cases h
    | cons a i => exact h

theorem number_iff {v : Nat} {bs : Bytes} : IsNumber v bs ↔ bs = trimmed v := by
  constructor
  · rintro ⟨h1, h2⟩
    rw [← h1]
    exact trimmed_of _ bs rfl h2
  · rintro rfl
    induction v using Nat.strongRecOn with
    | ind v ih =>
      by_cases h0 : v = 0
      · subst h0; rw [trimmed_zero]; exact ⟨rfl, by simp⟩
      · rw [trimmed_pos h0]
        obtain ⟨h1, h2⟩ := ih (v / 256) (by omega)
        constructor
        · rw [fromBe_append_singleton, h1, UInt8.toNat_ofNat', Nat.mod_mod_of_dvd _ (by decide)]
          omega
        · by_cases h3 : v / 256 = 0
          · rw [h3, trimmed_zero]
            intro h
            have h := Option.some.inj h
            have := congrArg UInt8.toNat h
            rw [UInt8.toNat_ofNat'] at this
            simp at this
            omega
          · rw [trimmed_pos h3] at h2 ⊢
            rw [List.head?_append] at h2
            intro h
            rw [List.head?_append, List.head?_append] at h
            apply h2
            generalize (trimmed (v / 256 / 256)).head? = x at h ⊢
            cases x <;> simp_all

theorem number_trimmed (v : Nat) : IsNumber v (trimmed v) := number_iff.mpr rfl

theorem trimmed_length_le {v k : Nat} : (trimmed v).length ≤ k ↔ v < 256 ^ k := by
  obtain ⟨h1, h2⟩ := number_trimmed v
  constructor
  · intro h
    have := fromBe_lt (trimmed v)
    rw [h1] at this
    exact Nat.lt_of_lt_of_le this (Nat.pow_le_pow_right (by decide) h)
  · intro h
    rcases Nat.lt_or_ge k (trimmed v).length with hk | hk
    · have hp := head_pos (bs := trimmed v) (by intro e; rw [e] at hk; cases hk) h2
      rw [h1] at hp
      have := Nat.pow_le_pow_right (n := 256) (by decide) (show k ≤ (trimmed v).length - 1 by omega)
      omega
    · exact hk

theorem trimmed_small {v : Nat} (h0 : v ≠ 0) (h : v < 256) : trimmed v = [UInt8.ofNat v] := by
  rw [trimmed_pos h0, show v / 256 = 0 by omega, trimmed_zero, Nat.mod_eq_of_lt h]
  rfl

theorem leftPad_iff {k v : Nat} {bs : Bytes} : leftPad k bs = .ok v ↔ IsNumber v bs ∧ bs.length ≤ k := by
  unfold leftPad
  split
  · next h => simp; intro _; omega
  · next h =>
    cases bs with
    | nil => simp [IsNumber, fromBe_nil]
    | cons b bs =>
      simp only
      split
      · next h => simp [IsNumber, h]
      · next hb => simp [IsNumber, hb] at h ⊢; intro _; omega

theorem prefix_encode {list : Bool} {n : Nat} {p : Bytes} :
    IsPrefix (if list then 192 else 128) n p ↔ p = Header.encode ⟨list, n⟩ ∧ n < 256 ^ 8 := by
  unfold IsPrefix Header.encode
  by_cases h : n < 56
  · simp only [h, true_and, Nat.not_le.mpr h, false_and, or_false, if_true]
    constructor
    · rintro ⟨b, rfl, hb⟩
      refine ⟨?_, by omega⟩
      congr 1
      apply UInt8.toNat_inj.mp
      rw [UInt8.toNat_ofNat', hb]
      cases list <;> simp <;> omega
    · rintro ⟨rfl, _⟩
      refine ⟨_, rfl, ?_⟩
      rw [UInt8.toNat_ofNat']
      cases list <;> simp <;> omega
  · simp only [h, false_and, false_or, if_false, Nat.le_of_not_lt h, true_and]
    constructor
    · rintro ⟨b, be, rfl, h1, h2, h3⟩
      have h1 := number_iff.mp h1
      subst h1
      refine ⟨?_, trimmed_length_le.mp h2⟩
      congr 1
      apply UInt8.toNat_inj.mp
      rw [UInt8.toNat_ofNat', h3]
      cases list <;> simp <;> omega
    · rintro ⟨rfl, hn⟩
      have h2 := trimmed_length_le.mpr hn
      refine ⟨_, _, rfl, number_trimmed n, h2, ?_⟩
      rw [UInt8.toNat_ofNat']
      cases list <;> simp <;> omega

theorem check_iff {h h' : Header} {buf rest : Bytes} :
    Header.check h buf = .ok (h', rest) ↔ h' = h ∧ rest = buf ∧ h.length ≤ buf.length := by
  unfold Header.check
  split
  · next hl => simp; intro _ _; omega
  · next hl => simp; constructor
               · rintro ⟨rfl, rfl⟩; exact ⟨rfl, rfl, by omega⟩
               · rintro ⟨rfl, rfl, _⟩; exact ⟨rfl, rfl⟩

theorem long_ok {list : Bool} {size : Nat} {buf rest : Bytes} {h : Header}
    (hd : Header.decodeLong list size buf = .ok (h, rest)) :
    h.list = list ∧ 56 ≤ h.length ∧ h.length ≤ rest.length ∧
      ∃ be, buf = be ++ rest ∧ IsNumber h.length be ∧ be.length ≤ 8 ∧ be.length = size := by
  unfold Header.decodeLong at hd
  split at hd
  · cases hd
  · next hl =>
    split at hd
    · cases hd
    · next n hp =>
      split at hd
      · cases hd
      · next hn =>
        obtain ⟨rfl, rfl, h3⟩ := check_iff.mp hd
        obtain ⟨h4, h5⟩ := leftPad_iff.mp hp
        exact ⟨rfl, Nat.le_of_not_lt hn, h3, _, (List.take_append_drop ..).symm, h4, h5, by rw [List.length_take]; omega⟩

theorem long_of {list : Bool} {be rest : Bytes} {n : Nat} (hn : 56 ≤ n) (h1 : IsNumber n be) (h2 : be.length ≤ 8)
    (hl : n ≤ rest.length) : Header.decodeLong list be.length (be ++ rest) = .ok (⟨list, n⟩, rest) := by
  unfold Header.decodeLong
  rw [if_neg (by rw [List.length_append]; omega), List.take_left', List.drop_left' rfl]
  · rw [leftPad_iff.mpr ⟨h1, h2⟩]
    simp only
    rw [if_neg (by omega)]
    exact check_iff.mpr ⟨rfl, rfl, hl⟩
  · rfl

theorem decode_ok {bs rest : Bytes} {h : Header} (hd : Header.decode bs = .ok (h, rest)) :
    h.length ≤ rest.length ∧
    ((∃ b, bs = b :: rest.drop 1 ∧ rest = bs ∧ b.toNat < 128 ∧ h = ⟨false, 1⟩) ∨
      (∃ p, IsPrefix (if h.list then 192 else 128) h.length p ∧ bs = p ++ rest ∧
        (h = ⟨false, 1⟩ → ∃ c, rest.head? = some c ∧ 128 ≤ c.toNat))) := by
  cases bs with
  | nil => cases hd
  | cons b buf =>
    simp only [Header.decode] at hd
    generalize hk : b.toNat = k at hd
    have hkl := b.toNat_lt
    rw [hk] at hkl
    split at hd
    · next hb =>
      obtain ⟨rfl, rfl, h3⟩ := check_iff.mp hd
      exact ⟨h3, .inl ⟨b, rfl, rfl, by omega, rfl⟩⟩
    · next hb =>
      split at hd
      · next hb' =>
        split at hd
        · next h1 =>
          split at hd
          · cases hd
          · next c _ =>
            split at hd
            · cases hd
            · next hc =>
              obtain ⟨rfl, rfl, h3⟩ := check_iff.mp hd
              exact ⟨h3, .inr ⟨[b], .inl ⟨by simp, b, rfl, by simp; omega⟩, rfl, fun _ => ⟨c, rfl, by omega⟩⟩⟩
        · next h1 =>
          obtain ⟨rfl, rfl, h3⟩ := check_iff.mp hd
          refine ⟨h3, .inr ⟨[b], .inl ⟨by simp only; omega, b, rfl, by simp; omega⟩, rfl, fun e => ?_⟩⟩
          exact absurd (congrArg Header.length e) h1
      · next hb' =>
        split at hd
        · next hb2 =>
          obtain ⟨h1, h2, h3, be, rfl, h4, h5, h6⟩ := long_ok hd
          refine ⟨h3, .inr ⟨b :: be, .inr ⟨h2, b, be, rfl, h4, h5, ?_⟩, rfl, fun e => ?_⟩⟩
          · rw [h1, hk, h6]; simp only [Bool.false_eq_true, if_false]; omega
          · rw [e] at h2; exact absurd h2 (by simp)
        · next hb2 =>
          split at hd
          · next hb3 =>
            obtain ⟨rfl, rfl, h3⟩ := check_iff.mp hd
            refine ⟨h3, .inr ⟨[b], .inl ⟨by simp only; omega, b, rfl, by simp only [if_true]; omega⟩, rfl, fun e => ?_⟩⟩
            exact absurd (congrArg Header.list e) (by simp)
          · next hb3 =>
            obtain ⟨h1, h2, h3, be, rfl, h4, h5, h6⟩ := long_ok hd
            refine ⟨h3, .inr ⟨b :: be, .inr ⟨h2, b, be, rfl, h4, h5, ?_⟩, rfl, fun e => ?_⟩⟩
            · rw [h1, hk, h6]; simp only [if_true]; omega
            · rw [e] at h2; exact absurd h2 (by simp)

theorem decode_one {b : UInt8} {buf : Bytes} (hb : b.toNat < 128) : Header.decode (b :: buf) = .ok (⟨false, 1⟩, b :: buf) := by
  simp only [Header.decode]
  rw [if_pos hb]
  exact check_iff.mpr ⟨rfl, rfl, by simp⟩

theorem decode_prefix {list : Bool} {n : Nat} {p rest : Bytes} (hp : IsPrefix (if list then 192 else 128) n p)
    (hl : n ≤ rest.length) (hc : list = false → n = 1 → ∃ c, rest.head? = some c ∧ 128 ≤ c.toNat) :
    Header.decode (p ++ rest) = .ok (⟨list, n⟩, rest) := by
  rcases hp with ⟨hn, b, rfl, hb⟩ | ⟨hn, b, be, rfl, h1, h2, h3⟩
  · simp only [List.singleton_append, Header.decode]
    generalize b.toNat = k at hb
    cases list
    · simp only [Bool.false_eq_true, if_false] at hb
      have hs : k - 128 = n := by omega
      rw [if_neg (by omega), if_pos (by omega), hs]
      split
      · next h =>
        subst h
        obtain ⟨c, h4, h5⟩ := hc rfl rfl
        cases rest with
        | nil => cases h4
        | cons d rest =>
          cases h4
          simp only
          rw [if_neg (by omega)]
          exact check_iff.mpr ⟨rfl, rfl, by simp⟩
      · exact check_iff.mpr ⟨rfl, rfl, hl⟩
    · simp only [if_true] at hb
      have hs : k - 192 = n := by omega
      rw [if_neg (by omega), if_neg (by omega), if_neg (by omega), if_pos (by omega), hs]
      exact check_iff.mpr ⟨rfl, rfl, hl⟩
  · have hpos : 1 ≤ be.length := by
      rcases Nat.eq_zero_or_pos be.length with h0 | h0
      · have := h1.1
        rw [List.length_eq_zero_iff.mp h0, fromBe_nil] at this
        omega
      · exact h0
    simp only [List.cons_append, Header.decode]
    generalize b.toNat = k at h3
    cases list
    · simp only [Bool.false_eq_true, if_false] at h3
      have hs : k - 183 = be.length := by omega
      rw [if_neg (by omega), if_neg (by omega), if_pos (by omega), hs]
      exact long_of hn h1 h2 hl
    · simp only [if_true] at h3
      have hs : k - 247 = be.length := by omega
      rw [if_neg (by omega), if_neg (by omega), if_neg (by omega), if_neg (by omega), hs]
      exact long_of hn h1 h2 hl

theorem decode_list {n : Nat} {bs rest : Bytes} : Header.decode bs = .ok (⟨true, n⟩, rest) ↔
    ∃ p, IsPrefix 192 n p ∧ bs = p ++ rest ∧ n ≤ rest.length := by
  constructor
  · intro h
    obtain ⟨h1, ⟨_, _, _, _, h2⟩ | ⟨p, h2, h3, _⟩⟩ := decode_ok h
    · cases h2
    · exact ⟨p, h2, h3, h1⟩
  · rintro ⟨p, h1, rfl, h2⟩
    exact decode_prefix (list := true) h1 h2 (by simp)

theorem decodeBytes_iff {bs s rest : Bytes} : decodeBytes bs = .ok (s, rest) ↔ ∃ p, IsString s p ∧ bs = p ++ rest := by
  constructor
  · intro h
    unfold decodeBytes at h
    split at h
    · cases h
    · next hd buf h1 =>
      obtain ⟨list, n⟩ := hd
      split at h
      · cases h
      · next hf =>
        have hf : list = false := by simpa using hf
        subst hf
        obtain ⟨h2, h3⟩ := decode_ok h1
        simp only at h2
        cases h
        rcases h3 with ⟨b, h4, h5, h6, h7⟩ | ⟨p, h4, h5, h6⟩
        · cases h7
          subst h5
          cases buf with
          | nil => cases h4
          | cons c buf =>
            simp only [List.drop_succ_cons, List.drop_zero, List.cons.injEq, and_true] at h4
            subst h4
            exact ⟨[c], .inl ⟨c, rfl, h6, rfl⟩, rfl⟩
        · have hlen : (buf.take n).length = n := by rw [List.length_take]; omega
          refine ⟨p ++ buf.take n, .inr ⟨?_, p, by rw [hlen]; exact h4, rfl⟩, by rw [h5, List.append_assoc, List.take_append_drop]⟩
          rintro ⟨b, h7, h8⟩
          have : n = 1 := by rw [h7] at hlen; exact hlen.symm
          subst this
          obtain ⟨c, h9, h10⟩ := h6 rfl
          cases buf with
          | nil => cases h9
          | cons d buf =>
            cases h9
            cases h7
            omega
  · rintro ⟨p, h | ⟨h, q, h1, rfl⟩, rfl⟩
    · obtain ⟨b, rfl, h1, rfl⟩ := h
      unfold decodeBytes
      rw [List.singleton_append, decode_one h1]
      rfl
    · unfold decodeBytes
      rw [List.append_assoc, decode_prefix (list := false) h1 (by simp) ?_]
      · simp
      · intro _ hs
        cases s with
        | nil => cases hs
        | cons c s =>
          cases s with
          | cons _ _ => simp at hs
          | nil =>
            refine ⟨c, rfl, ?_⟩
            rcases Nat.lt_or_ge c.toNat 128 with hc | hc
            · exact absurd ⟨c, rfl, hc⟩ h
            · exact hc

theorem decodeInt_iff {k v : Nat} {bs rest : Bytes} :
    decodeInt k bs = .ok (v, rest) ↔ ∃ p, IsInt v p ∧ bs = p ++ rest ∧ v < 256 ^ k := by
  constructor
  · intro h
    unfold decodeInt at h
    split at h
    · cases h
    · next be buf h1 =>
      split at h
      · cases h
      · next h2 =>
        cases h
        obtain ⟨p, h3, h4⟩ := decodeBytes_iff.mp h1
        obtain ⟨h5, h6⟩ := leftPad_iff.mp h2
        refine ⟨p, ⟨be, h5, h3⟩, h4, ?_⟩
        rw [number_iff.mp h5] at h6
        exact trimmed_length_le.mp h6
  · rintro ⟨p, ⟨be, h1, h2⟩, rfl, h3⟩
    unfold decodeInt
    rw [decodeBytes_iff.mpr ⟨p, h2, rfl⟩]
    simp only
    rw [leftPad_iff.mpr ⟨h1, by rw [number_iff.mp h1]; exact trimmed_length_le.mpr h3⟩]

theorem encodeBytes_string {s : Bytes} (h : s.length < 256 ^ 8) : IsString s (encodeBytes s) := by
  have hp := (prefix_encode (list := false)).mpr ⟨rfl, h⟩
  unfold encodeBytes
  split
  · next b =>
    split
    · next hb => exact .inl ⟨b, rfl, hb, rfl⟩
    · next hb =>
      refine .inr ⟨?_, _, hp, rfl⟩
      rintro ⟨c, h1, h2⟩
      cases h1
      omega
  · next hs =>
    refine .inr ⟨?_, _, hp, rfl⟩
    rintro ⟨c, rfl, h2⟩
    exact hs c rfl

theorem encodeInt_int {v : Nat} (h : v < 256 ^ 8) : IsInt v (encodeInt v) := by
  refine ⟨trimmed v, number_trimmed v, ?_⟩
  have hl := trimmed_length_le.mpr h
  unfold encodeInt
  split
  · next h0 =>
    subst h0
    rw [trimmed_zero]
    exact .inr ⟨by simp, [0x80], .inl ⟨by simp, _, rfl, rfl⟩, rfl⟩
  · next h0 =>
    split
    · next h1 =>
      rw [trimmed_small h0 (by omega)]
      refine .inl ⟨_, rfl, ?_, rfl⟩
      rw [UInt8.toNat_ofNat']
      omega
    · next h1 =>
      refine .inr ⟨?_, [_], .inl ⟨by omega, _, rfl, ?_⟩, rfl⟩
      · rintro ⟨b, h2, h3⟩
        have h4 := (number_trimmed v).1
        rw [h2] at h4
        simp [fromBe] at h4
        omega
      · rw [UInt8.toNat_ofNat']; omega

theorem string_inj {s p q : Bytes} (hp : IsString s p) (hq : IsString s q) : p = q := by
  rcases hp with ⟨b, h1, h2, rfl⟩ | ⟨h1, p, h2, rfl⟩
  · rcases hq with ⟨_, _, _, rfl⟩ | ⟨h3, _⟩
    · rfl
    · exact absurd ⟨b, h1, h2⟩ h3
  · rcases hq with ⟨b, h3, h4, rfl⟩ | ⟨_, q, h3, rfl⟩
    · exact absurd ⟨b, h3, h4⟩ h1
    · rw [((prefix_encode (list := false)).mp h2).1, ((prefix_encode (list := false)).mp h3).1]

theorem int_iff {v : Nat} {p : Bytes} (h : v < 256 ^ 8) : IsInt v p ↔ p = encodeInt v := by
  constructor
  · rintro ⟨be, h1, h2⟩
    obtain ⟨be', h3, h4⟩ := encodeInt_int h
    rw [number_iff.mp h1, ← number_iff.mp h3] at h2
    exact string_inj h2 h4
  · rintro rfl
    exact encodeInt_int h

theorem encodeInt_length {v : Nat} : (encodeInt v).length = lengthInt v := by
  unfold encodeInt lengthInt
  split
  · next h => subst h; rfl
  · split
    · next h => rfl
    · simp; omega

theorem header_encode_length (h : Header) : h.encode.length = lengthOfLength h.length := by
  unfold Header.encode lengthOfLength
  split <;> simp; omega

end Verif.Rlp
