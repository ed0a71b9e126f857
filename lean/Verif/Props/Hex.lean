import Verif.Model.Hex
import Verif.Lemmas.Payload

/-! # C44: hex strings -/

namespace Verif.Props
open Verif.Hex

/-- A hexadecimal digit character. -/
def IsHexDigit (c : Char) : Prop :=
  ('0' ≤ c ∧ c ≤ '9') ∨ ('a' ≤ c ∧ c ≤ 'f') ∨ ('A' ≤ c ∧ c ≤ 'F')

theorem char_le_iff (a b : Char) : a ≤ b ↔ a.toNat ≤ b.toNat := by
  rw [Char.le_def, UInt32.le_iff_toNat_le]; rfl

theorem digitVal_isSome_iff (c : Char) : (digitVal c).isSome ↔ IsHexDigit c := by
  have h0 : '0'.toNat = 48 := rfl
  have h9 : '9'.toNat = 57 := rfl
  have ha : 'a'.toNat = 97 := rfl
  have hf : 'f'.toNat = 102 := rfl
  have hA : 'A'.toNat = 65 := rfl
  have hF : 'F'.toNat = 70 := rfl
  unfold digitVal IsHexDigit
  simp only [char_le_iff, h0, h9, ha, hf, hA, hF]
  repeat' split
  all_goals simp only [Option.isSome_some, Option.isSome_none, true_iff, false_iff,
    Bool.false_eq_true] <;> omega

theorem digitVal_lt {c : Char} {n : Nat} (h : digitVal c = some n) : n < 16 := by
  unfold digitVal at h
  simp only at h
  repeat' split at h
  all_goals first | (simp only [Option.some.injEq] at h; omega) | cases h

theorem digitVal_digit : ∀ n : Fin 16, digitVal (digit n.val) = some n.val ∧
    digitVal (digitUpper n.val) = some n.val := by decide

theorem decode_body (dig : Nat → Char) (hd : ∀ n : Fin 16, digitVal (dig n.val) = some n.val)
    (bs : Bytes) : hexBodyDecode (hexBody dig bs) = .ok bs := by
  induction bs with
  | nil => rfl
  | cons b bs ih =>
    have hb := b.toNat_lt
    have h1 := hd ⟨b.toNat / 16, by omega⟩
    have h2 := hd ⟨b.toNat % 16, by omega⟩
    simp only at h1 h2
    have h3 : UInt8.ofNat (16 * (b.toNat / 16) + b.toNat % 16) = b := by
      rw [Nat.div_add_mod]; simp
    simp only [hexBody, hexBodyDecode, h1, h2, ih, h3]

/-- Hex-encoding any byte string, in lower or upper case, and decoding it returns the byte string. -/
theorem C44_roundtrip (bs : Bytes) :
    hexDecode (hexEncode bs) = .ok bs ∧ hexDecode (hexEncodeUpper bs) = .ok bs := by
  constructor
  · simp only [hexEncode, hexDecode]
    rw [if_pos ⟨trivial, Or.inl trivial⟩]
    exact decode_body _ (fun n => (digitVal_digit n).1) bs
  · simp only [hexEncodeUpper, hexDecode]
    rw [if_pos ⟨trivial, Or.inl trivial⟩]
    exact decode_body _ (fun n => (digitVal_digit n).2) bs

theorem bodyDecode_ok_iff : ∀ cs : List Char,
    (∃ bs, hexBodyDecode cs = .ok bs) ↔ cs.length % 2 = 0 ∧ ∀ c ∈ cs, IsHexDigit c
  | [] => by simp [hexBodyDecode]
  | [a] => by simp [hexBodyDecode]
  | a :: b :: rest => by
    have ih := bodyDecode_ok_iff rest
    simp only [hexBodyDecode, List.length_cons, List.forall_mem_cons]
    have ha := digitVal_isSome_iff a
    have hb := digitVal_isSome_iff b
    cases h1 : digitVal a with
    | none => simp [h1] at ha; simp [ha]
    | some h =>
      cases h2 : digitVal b with
      | none => simp [h2] at hb; simp [hb]
      | some l =>
        simp [h1] at ha; simp [h2] at hb
        cases h3 : hexBodyDecode rest with
        | ok bs =>
          have := ih.1 ⟨bs, h3⟩
          exact ⟨fun _ => ⟨by omega, ha, hb, this.2⟩, fun _ => ⟨_, rfl⟩⟩
        | error e =>
          have : ¬ (rest.length % 2 = 0 ∧ ∀ c ∈ rest, IsHexDigit c) := by
            rw [← ih]; rintro ⟨bs, hbs⟩; rw [h3] at hbs; cases hbs
          refine ⟨fun ⟨bs, h⟩ => (by cases h), fun ⟨he, _, _, hall⟩ => absurd ⟨?_, hall⟩ this⟩
          omega

/-- Decoding succeeds exactly on strings that are `0x` (or `0X`) followed by an even number of hex
digits; everything else is an error. -/
theorem C44_accepts_iff (cs : List Char) :
    (∃ bs, hexDecode cs = .ok bs) ↔
      ∃ x rest, cs = '0' :: x :: rest ∧ (x = 'x' ∨ x = 'X') ∧ rest.length % 2 = 0 ∧
        ∀ c ∈ rest, IsHexDigit c := by
  match cs with
  | [] => simp [hexDecode]
  | [a] => simp [hexDecode]
  | a :: b :: rest =>
    simp only [hexDecode]
    constructor
    · rintro ⟨bs, h⟩
      split at h
      · next hp =>
        obtain ⟨rfl, hb⟩ := hp
        have := (bodyDecode_ok_iff rest).1 ⟨bs, h⟩
        exact ⟨b, rest, rfl, hb, this⟩
      · cases h
    · rintro ⟨x, r, heq, hx, hr⟩
      simp only [List.cons.injEq] at heq
      obtain ⟨rfl, rfl, rfl⟩ := heq
      rw [if_pos ⟨rfl, hx⟩]
      exact (bodyDecode_ok_iff rest).2 hr

theorem bodyDecode_value : ∀ (cs : List Char) (bs : Bytes), hexBodyDecode cs = .ok bs →
    cs.length = 2 * bs.length ∧ ∀ i (hi : i < bs.length), ∃ h l a b,
      cs[2 * i]? = some a ∧ cs[2 * i + 1]? = some b ∧ digitVal a = some h ∧ digitVal b = some l ∧
      bs[i].toNat = 16 * h + l
  | [], bs, h => by simp [hexBodyDecode] at h; subst h; simp
  | [a], bs, h => by simp [hexBodyDecode] at h
  | a :: b :: rest, bs, h => by
    unfold hexBodyDecode at h
    split at h
    · next hv lv h1 h2 =>
      split at h
      · next bs' h3 =>
        obtain ⟨ihl, ihv⟩ := bodyDecode_value rest bs' h3
        simp only [Except.ok.injEq] at h
        subst h
        refine ⟨by simp [ihl]; omega, ?_⟩
        intro i hi
        cases i with
        | zero =>
          refine ⟨hv, lv, a, b, rfl, rfl, h1, h2, ?_⟩
          have e1 := digitVal_lt h1
          have e2 := digitVal_lt h2
          simp [UInt8.toNat_ofNat']; omega
        | succ i =>
          simp only [List.length_cons] at hi
          obtain ⟨h', l', a', b', q1, q2, q3, q4, q5⟩ := ihv i (by omega)
          refine ⟨h', l', a', b', ?_, ?_, q3, q4, by simpa using q5⟩
          · rw [show 2 * (i + 1) = 2 * i + 1 + 1 by omega]; simpa using q1
          · rw [show 2 * (i + 1) + 1 = 2 * i + 1 + 1 + 1 by omega]; simpa using q2
      · cases h
    · cases h

/-- A decoded string has half as many bytes as digits, and byte `i` is the value of digits `2i` and
`2i+1`, so two strings decode to the same bytes only if they agree up to letter case. -/
theorem C44_value (x : Char) (digits : List Char) (bs : Bytes)
    (h : hexDecode ('0' :: x :: digits) = .ok bs) :
    digits.length = 2 * bs.length ∧ ∀ i (hi : i < bs.length), ∃ h l a b,
      digits[2 * i]? = some a ∧ digits[2 * i + 1]? = some b ∧
      digitVal a = some h ∧ digitVal b = some l ∧ bs[i].toNat = 16 * h + l := by
  simp only [hexDecode] at h
  split at h
  · exact bodyDecode_value digits bs h
  · cases h

/-- Encoding is injective. -/
theorem C44_injective (a b : Bytes) (h : hexEncode a = hexEncode b) : a = b := by
  have h1 := (C44_roundtrip a).1
  rw [h, (C44_roundtrip b).1] at h1
  exact (Except.ok.inj h1).symm

/-- The compact form is for display only: it does not determine the bytes. -/
theorem C44_compact_not_injective :
    ∃ a b : Bytes, a ≠ b ∧ hexEncodeCompact a = hexEncodeCompact b :=
  ⟨[1, 2, 3, 4, 5, 6, 7, 8, 9], [1, 2, 3, 4, 0, 6, 7, 8, 9], by decide, by decide⟩

example : hexEncode [0xab, 0x01] = "0xab01".toList := by decide
example : hexDecode "0XaB01".toList = .ok [0xab, 0x01] := by rfl

end Verif.Props
