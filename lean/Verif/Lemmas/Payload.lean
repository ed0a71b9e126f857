import Verif.Model.Payload
import Verif.Lemmas.Bytes

namespace Verif.Payload

/-- Fuel-free characterisation of a LEB128 byte group: value and well-formedness. -/
def lebValue : Bytes → Nat
  | [] => 0
  | b :: bs => b.toNat % 128 + 128 * lebValue bs

/-- All bytes but the last carry the continuation bit, the last does not. -/
def lebShape : Bytes → Prop
  | [] => False
  | [b] => b.toNat < 128
  | b :: bs => 128 ≤ b.toNat ∧ lebShape bs

theorem or_shift_eq_add {acc shift x : Nat} (h : acc < 2 ^ shift) :
    acc ||| (x <<< shift) = acc + x * 2 ^ shift := by
  rw [Nat.or_comm, ← Nat.shiftLeft_add_eq_or_of_lt h, Nat.shiftLeft_eq, Nat.add_comm]

theorem byte_ofNat_toNat {v : Nat} (h : v < 256) : (UInt8.ofNat v).toNat = v := by
  simp [UInt8.toNat_ofNat']; omega

theorem lebReadLoop_write (v shift acc : Nat) (rest : Bytes)
    (hacc : acc < 2 ^ shift) (hv : v * 2 ^ shift < 2 ^ 63) :
    lebReadLoop shift acc (lebWrite v ++ rest) = .ok (acc + v * 2 ^ shift, rest) := by
  induction v using Nat.strongRecOn generalizing shift acc with
  | _ v ih =>
    rw [lebWrite]
    split
    · rename_i hlt
      simp only [List.cons_append, List.nil_append, lebReadLoop]
      have hb : (UInt8.ofNat v).toNat = v := byte_ofNat_toNat (by omega)
      rw [if_neg, hb, if_pos hlt, Nat.mod_eq_of_lt hlt, or_shift_eq_add hacc]
      rintro ⟨rfl, h0, _⟩
      apply h0
      have : v = 0 := by omega
      subst this; rfl
    · rename_i hge
      have hs : shift < 63 := by
        by_cases hc : shift < 63
        · exact hc
        · exfalso
          have : 2 ^ 63 ≤ 2 ^ shift := Nat.pow_le_pow_right (by decide) (by omega)
          have : 1 * 2 ^ shift ≤ v * 2 ^ shift := Nat.mul_le_mul_right _ (by omega)
          omega
      simp only [List.cons_append, lebReadLoop]
      have hb : (UInt8.ofNat (v % 128 + 128)).toNat = v % 128 + 128 :=
        byte_ofNat_toNat (by omega)
      rw [if_neg (by omega), hb, if_neg (by omega)]
      have hm : (v % 128 + 128) % 128 = v % 128 := by omega
      rw [hm, or_shift_eq_add hacc]
      have e7 : 2 ^ (shift + 7) = 2 ^ shift * 128 := by rw [Nat.pow_add]
      have hdm : v = v % 128 + 128 * (v / 128) := by omega
      have hsplit : v * 2 ^ shift = v % 128 * 2 ^ shift + v / 128 * (2 ^ shift * 128) := by
        conv => lhs; rw [hdm]
        rw [Nat.add_mul, Nat.mul_comm 128, Nat.mul_assoc, Nat.mul_comm 128]
      rw [ih (v / 128) (by omega) (shift + 7)]
      · rw [e7]; congr 2; omega
      · rw [e7]
        have : v % 128 * 2 ^ shift ≤ 127 * 2 ^ shift := Nat.mul_le_mul_right _ (by omega)
        omega
      · rw [e7]; omega

theorem readVarint_write (v : Nat) (rest : Bytes) (hv : v < 2 ^ 32) :
    readVarint (lebWrite v ++ rest) = .ok (v, rest) := by
  unfold readVarint
  rw [lebReadLoop_write v 0 0 rest (by simp) (by simp; omega)]
  simp [hv]

theorem lebWrite_ne_nil (v : Nat) : lebWrite v ≠ [] := by
  rw [lebWrite]; split <;> simp

theorem decodeNext_encoded (item rest : Bytes) (h : item.length < 2 ^ 32) :
    decodeNext (lebWrite item.length ++ item ++ rest) = .ok (some (item, rest)) := by
  unfold decodeNext
  rw [if_neg (by simp [lebWrite_ne_nil])]
  rw [List.append_assoc, readVarint_write _ _ h]
  simp

theorem lebReadLoop_consumes {shift acc : Nat} {bs rest : Bytes} {v : Nat}
    (h : lebReadLoop shift acc bs = .ok (v, rest)) (hacc : acc < 2 ^ shift) :
    ∃ p, bs = p ++ rest ∧ lebShape p ∧ v = acc + lebValue p * 2 ^ shift := by
  induction bs generalizing shift acc with
  | nil => simp [lebReadLoop] at h
  | cons b bs ih =>
    simp only [lebReadLoop] at h
    split at h
    · simp at h
    · split at h
      · rename_i hb
        simp only [Except.ok.injEq, Prod.mk.injEq] at h
        obtain ⟨rfl, rfl⟩ := h
        refine ⟨[b], by simp, hb, ?_⟩
        rw [or_shift_eq_add hacc]
        simp [lebValue]
      · rename_i hb
        rw [or_shift_eq_add hacc] at h
        have e7 : 2 ^ (shift + 7) = 2 ^ shift * 128 := by rw [Nat.pow_add]
        have hlt : acc + b.toNat % 128 * 2 ^ shift < 2 ^ (shift + 7) := by
          rw [e7]
          have : b.toNat % 128 * 2 ^ shift ≤ 127 * 2 ^ shift := Nat.mul_le_mul_right _ (by omega)
          omega
        obtain ⟨p, rfl, hp, rfl⟩ := ih h hlt
        refine ⟨b :: p, by simp, ?_, ?_⟩
        · cases p with
          | nil => exact absurd hp (by simp [lebShape])
          | cons c p => exact ⟨by omega, hp⟩
        · simp only [lebValue]
          rw [e7, Nat.add_mul, Nat.mul_comm 128, Nat.mul_assoc, Nat.mul_comm 128, Nat.add_assoc]

theorem readVarint_consumes {bs rest : Bytes} {v : Nat} (h : readVarint bs = .ok (v, rest)) :
    ∃ p, bs = p ++ rest ∧ lebShape p ∧ v = lebValue p ∧ v < 2 ^ 32 := by
  unfold readVarint at h
  split at h
  · simp at h
  · rename_i v' rest' heq
    split at h
    · rename_i hlt
      simp only [Except.ok.injEq, Prod.mk.injEq] at h
      obtain ⟨rfl, rfl⟩ := h
      obtain ⟨p, h1, h2, h3⟩ := lebReadLoop_consumes heq (by simp)
      exact ⟨p, h1, h2, by simpa using h3, hlt⟩
    · simp at h

theorem decodeNext_some {bs item rest : Bytes} (h : decodeNext bs = .ok (some (item, rest))) :
    ∃ p, bs = p ++ item ++ rest ∧ lebShape p ∧ item.length = lebValue p ∧ item.length < 2 ^ 32 := by
  unfold decodeNext at h
  split at h
  · simp at h
  · split at h
    · simp at h
    · rename_i n rest' heq
      split at h
      · simp at h
      · rename_i hlen
        simp only [Except.ok.injEq, Option.some.injEq, Prod.mk.injEq] at h
        obtain ⟨rfl, rfl⟩ := h
        obtain ⟨p, h1, h2, h3, h4⟩ := readVarint_consumes heq
        refine ⟨p, by simp [h1], h2, ?_, ?_⟩ <;> simp <;> omega

theorem decodeNext_none {bs : Bytes} : decodeNext bs = .ok none ↔ bs = [] := by
  unfold decodeNext
  constructor
  · intro h
    split at h
    · assumption
    · split at h
      · simp at h
      · split at h <;> simp at h
  · intro h; simp [h]

theorem decodeNext_shorter {bs item rest : Bytes} (h : decodeNext bs = .ok (some (item, rest))) :
    rest.length < bs.length := by
  obtain ⟨p, rfl, hp, _⟩ := decodeNext_some h
  cases p with
  | nil => exact absurd hp (by simp [lebShape])
  | cons => simp; omega

theorem decode_fuel (fuel : Nat) (bs : Bytes) (h : bs.length ≤ fuel) :
    decodeLoop fuel bs = decodeLoop (bs.length) bs := by
  suffices H : ∀ n fuel (bs : Bytes), bs.length ≤ n → bs.length ≤ fuel →
      decodeLoop fuel bs = decodeLoop bs.length bs from H _ fuel bs (Nat.le_refl _) h
  intro n
  induction n with
  | zero =>
    intro fuel bs hb _
    have : bs = [] := by simpa using hb
    subst this
    cases fuel with
    | zero => rfl
    | succ f => simp [decodeLoop, decodeNext]
  | succ n ih =>
    intro fuel bs hb hf
    cases bs with
    | nil =>
      cases fuel with
      | zero => rfl
      | succ f => simp [decodeLoop, decodeNext]
    | cons b bs =>
      cases fuel with
      | zero => simp at hf
      | succ f =>
        simp only [List.length_cons, decodeLoop]
        cases hd : decodeNext (b :: bs) with
        | error e => rfl
        | ok o =>
          cases o with
          | none => rfl
          | some p =>
            obtain ⟨item, rest⟩ := p
            have hs := decodeNext_shorter hd
            simp only [List.length_cons] at hs hb hf
            simp only []
            rw [ih f rest (by omega) (by omega), ih bs.length rest (by omega) (by omega)]

theorem decode_nil : decode [] = .ok [] := by simp [decode, decodeLoop]

theorem decode_step (bs : Bytes) :
    decode bs = match decodeNext bs with
      | .error e => .error e
      | .ok none => .ok []
      | .ok (some (item, rest)) =>
        match decode rest with
        | .error e => .error e
        | .ok items => .ok (item :: items) := by
  cases bs with
  | nil => simp [decode, decodeLoop, decodeNext]
  | cons b bs =>
    rw [decode]
    simp only [List.length_cons, decodeLoop]
    cases hd : decodeNext (b :: bs) with
    | error e => rfl
    | ok o =>
      cases o with
      | none => rfl
      | some p =>
        obtain ⟨item, rest⟩ := p
        have hs := decodeNext_shorter hd
        simp only [List.length_cons] at hs
        simp only [decode]
        rw [decode_fuel bs.length rest (by omega)]
        rfl

theorem decode_encode_append (items : List Bytes) (payload : Bytes) (rest : Bytes)
    (h : encode items = .ok payload) :
    decode (payload ++ rest) = match decode rest with
      | .error e => .error e
      | .ok more => .ok (items ++ more) := by
  induction items generalizing payload with
  | nil =>
    simp only [encode, Except.ok.injEq] at h
    subst h
    simp only [List.nil_append]
    split <;> simp_all
  | cons item items ih =>
    simp only [encode] at h
    split at h
    · simp at h
    · rename_i hlen
      split at h
      · simp at h
      · rename_i tail heq
        simp only [Except.ok.injEq] at h
        subst h
        rw [List.append_assoc, decode_step, decodeNext_encoded _ _ (by omega)]
        simp only [ih tail heq]
        split <;> rename_i hx <;> split at hx <;> simp_all

theorem encode_ok_iff (items : List Bytes) :
    (∃ p, encode items = .ok p) ↔ ∀ i ∈ items, i.length < 2 ^ 32 := by
  induction items with
  | nil => simp [encode]
  | cons item items ih =>
    simp only [encode, List.mem_cons, forall_eq_or_imp]
    constructor
    · rintro ⟨p, hp⟩
      split at hp
      · simp at hp
      · split at hp
        · simp at hp
        · rename_i r heq
          exact ⟨by omega, ih.mp ⟨r, heq⟩⟩
    · rintro ⟨h1, h2⟩
      obtain ⟨p, hp⟩ := ih.mpr h2
      rw [if_neg (by omega), hp]
      exact ⟨_, rfl⟩

theorem lebShape_prefix_free {p q a b : Bytes} (hp : lebShape p) (hq : lebShape q)
    (h : p ++ a = q ++ b) : p = q := by
  induction p generalizing q with
  | nil => exact absurd hp (by simp [lebShape])
  | cons x p ih =>
    cases q with
    | nil => exact absurd hq (by simp [lebShape])
    | cons y q =>
      simp only [List.cons_append, List.cons.injEq] at h
      obtain ⟨rfl, h⟩ := h
      cases p with
      | nil =>
        cases q with
        | nil => rfl
        | cons z q => simp only [lebShape] at hp hq; omega
      | cons w p =>
        cases q with
        | nil => simp only [lebShape] at hp hq; omega
        | cons z q => rw [ih hp.2 hq.2 h]

/-- Inversion of a successful decode. -/
theorem decode_ok_cons {bs item : Bytes} {items : List Bytes}
    (h : decode bs = .ok (item :: items)) :
    ∃ rest, decodeNext bs = .ok (some (item, rest)) ∧ decode rest = .ok items := by
  rw [decode_step] at h
  split at h
  · simp at h
  · simp at h
  · rename_i it rest heq
    split at h
    · simp at h
    · rename_i its heq2
      simp only [Except.ok.injEq, List.cons.injEq] at h
      obtain ⟨rfl, rfl⟩ := h
      exact ⟨rest, heq, heq2⟩

theorem decode_ok_nil {bs : Bytes} (h : decode bs = .ok []) : bs = [] := by
  rw [decode_step] at h
  split at h
  · simp at h
  · rename_i heq; exact decodeNext_none.mp heq
  · split at h <;> simp at h

theorem decodeNext_frame {p item rest : Bytes} (hp : lebShape p) (hl : item.length = lebValue p)
    {pre it r : Bytes} (h : decodeNext pre = .ok (some (it, r))) (s : Bytes)
    (hpre : p ++ item ++ rest = pre ++ s) : it = item ∧ rest = r ++ s := by
  obtain ⟨q, rfl, hq, hlq, _⟩ := decodeNext_some h
  have e : p ++ (item ++ rest) = q ++ (it ++ r ++ s) := by simpa using hpre
  have : p = q := lebShape_prefix_free hp hq e
  subst this
  have e2 : item ++ rest = it ++ (r ++ s) := by simpa using e
  have hlen : item.length = it.length := by omega
  obtain ⟨h1, h2⟩ := List.append_inj e2 hlen
  exact ⟨h1.symm, h2⟩

theorem decode_prefix {bs pre s : Bytes} {items : List Bytes} (h : decode bs = .ok items)
    (hpre : bs = pre ++ s) :
    (∃ e, decode pre = .error e) ∨
      ∃ k, decode pre = .ok (items.take k) ∧ (s ≠ [] → k < items.length) := by
  induction items generalizing bs pre with
  | nil =>
    have := decode_ok_nil h
    subst this
    have : pre = [] ∧ s = [] := by simpa using hpre.symm
    obtain ⟨rfl, rfl⟩ := this
    exact .inr ⟨0, by simp [decode_nil], by simp⟩
  | cons item items ih =>
    obtain ⟨rest, h1, h2⟩ := decode_ok_cons h
    obtain ⟨p, rfl, hp, hl, _⟩ := decodeNext_some h1
    rw [decode_step pre]
    cases hd : decodeNext pre with
    | error e => exact .inl ⟨e, rfl⟩
    | ok o =>
      cases o with
      | none => exact .inr ⟨0, by simp, by simp⟩
      | some x =>
        obtain ⟨it, r⟩ := x
        obtain ⟨rfl, hr⟩ := decodeNext_frame hp hl hd s hpre
        rcases ih h2 hr with ⟨e, he⟩ | ⟨k, hk, hk'⟩
        · exact .inl ⟨e, by simp [he]⟩
        · refine .inr ⟨k + 1, by simp [hk], fun hs => ?_⟩
          have := hk' hs
          simp; omega

theorem decode_append {as bs : Bytes} {items : List Bytes} (h : decode as = .ok items) :
    decode (as ++ bs) = match decode bs with
      | .error e => .error e
      | .ok more => .ok (items ++ more) := by
  induction items generalizing as with
  | nil =>
    have := decode_ok_nil h
    subst this
    simp only [List.nil_append]
    split <;> simp_all
  | cons item items ih =>
    obtain ⟨rest, h1, h2⟩ := decode_ok_cons h
    have hx : decodeNext (as ++ bs) = .ok (some (item, rest ++ bs)) := by
      have hne : as ≠ [] := by
        rintro rfl; simp [decodeNext] at h1
      unfold decodeNext at h1 ⊢
      rw [if_neg hne] at h1
      rw [if_neg (by simp [hne])]
      have hv : ∀ sh acc (cs : Bytes) v r, lebReadLoop sh acc cs = .ok (v, r) →
          lebReadLoop sh acc (cs ++ bs) = .ok (v, r ++ bs) := by
        intro sh acc cs
        induction cs generalizing sh acc with
        | nil => intro v r hc; simp [lebReadLoop] at hc
        | cons c cs ihc =>
          intro v r hc
          simp only [List.cons_append, lebReadLoop] at hc ⊢
          split at hc
          · simp at hc
          · rename_i hn
            rw [if_neg hn]
            split at hc
            · rename_i hb
              rw [if_pos hb]
              simp only [Except.ok.injEq, Prod.mk.injEq] at hc ⊢
              exact ⟨hc.1, by rw [hc.2]⟩
            · rename_i hb
              rw [if_neg hb]
              exact ihc _ _ _ _ hc
      split at h1
      · simp at h1
      · rename_i n r heq
        have hrv : readVarint (as ++ bs) = .ok (n, r ++ bs) := by
          unfold readVarint at heq ⊢
          split at heq
          · simp at heq
          · rename_i v' r' heq2
            split at heq
            · rename_i hlt
              simp only [Except.ok.injEq, Prod.mk.injEq] at heq
              obtain ⟨rfl, rfl⟩ := heq
              rw [hv _ _ _ _ _ heq2]
              simp [hlt]
            · simp at heq
        rw [hrv]
        split at h1
        · simp at h1
        · rename_i hlen
          simp only [Except.ok.injEq, Option.some.injEq, Prod.mk.injEq] at h1
          obtain ⟨rfl, rfl⟩ := h1
          simp only [List.length_append]
          rw [if_neg (by omega)]
          simp only [Except.ok.injEq, Option.some.injEq, Prod.mk.injEq]
          refine ⟨List.take_append_of_le_length (by omega), List.drop_append_of_le_length (by omega)⟩
    rw [decode_step, hx]
    simp only [ih h2]
    split <;> rename_i hy <;> split at hy <;> simp_all

end Verif.Payload
