import Verif.Model.Bytes

namespace Verif

@[simp] theorem toBe_length (n v : Nat) : (toBe n v).length = n := by
  induction n generalizing v with
  | zero => rfl
  | succ n ih => simp [toBe, ih]

@[simp] theorem toLe_length (n v : Nat) : (toLe n v).length = n := by
  induction n generalizing v with
  | zero => rfl
  | succ n ih => simp [toLe, ih]

theorem fromBe_append_singleton (bs : Bytes) (b : UInt8) :
    fromBe (bs ++ [b]) = fromBe bs * 256 + b.toNat := by
  simp [fromBe, List.foldl_append]

theorem fromBe_nil : fromBe [] = 0 := rfl

theorem fromBe_foldl (bs : Bytes) (a : Nat) :
    bs.foldl (fun acc b => acc * 256 + b.toNat) a = a * 256 ^ bs.length + fromBe bs := by
  induction bs generalizing a with
  | nil => simp [fromBe]
  | cons b bs ih =>
    simp only [List.foldl_cons, List.length_cons, fromBe]
    rw [ih, ih (0 * 256 + b.toNat)]
    rw [Nat.pow_succ, Nat.add_mul]
    simp only [Nat.zero_mul, Nat.zero_add]
    rw [Nat.mul_assoc, Nat.mul_comm 256, Nat.add_assoc]

theorem fromBe_cons (b : UInt8) (bs : Bytes) :
    fromBe (b :: bs) = b.toNat * 256 ^ bs.length + fromBe bs := by
  have := fromBe_foldl bs (0 * 256 + b.toNat)
  simpa [fromBe] using this

theorem fromBe_append (as bs : Bytes) :
    fromBe (as ++ bs) = fromBe as * 256 ^ bs.length + fromBe bs := by
  have := fromBe_foldl bs (fromBe as)
  simp only [fromBe, List.foldl_append] at *
  exact this

theorem fromBe_lt (bs : Bytes) : fromBe bs < 256 ^ bs.length := by
  induction bs with
  | nil => simp [fromBe]
  | cons b bs ih =>
    rw [fromBe_cons, List.length_cons, Nat.pow_succ]
    have hb : b.toNat < 256 := b.toNat_lt
    have : b.toNat * 256 ^ bs.length ≤ 255 * 256 ^ bs.length :=
      Nat.mul_le_mul_right _ (by omega)
    omega

theorem fromBe_toBe (n v : Nat) : fromBe (toBe n v) = v % 256 ^ n := by
  induction n generalizing v with
  | zero => simp [toBe, fromBe, Nat.mod_one]
  | succ n ih =>
    rw [toBe, fromBe_append_singleton, ih]
    have h : (UInt8.ofNat (v % 256)).toNat = v % 256 := by
      simp [UInt8.toNat_ofNat']
    rw [h, Nat.pow_succ, Nat.mul_comm (256 ^ n) 256, Nat.mod_mul]
    rw [Nat.mul_comm (v / 256 % 256 ^ n) 256, Nat.add_comm]

theorem toBe_fromBe (bs : Bytes) : toBe bs.length (fromBe bs) = bs := by
  suffices h : ∀ n (bs : Bytes), bs.length = n → toBe n (fromBe bs) = bs from h _ bs rfl
  intro n
  induction n with
  | zero => intro bs h; simp [List.length_eq_zero_iff.mp h, toBe]
  | succ n ih =>
    intro bs h
    have hne : bs ≠ [] := by intro hc; simp [hc] at h
    obtain ⟨init, last, rfl⟩ : ∃ i l, bs = i ++ [l] :=
      ⟨bs.dropLast, bs.getLast hne, (List.dropLast_concat_getLast hne).symm⟩
    have hl : init.length = n := by simpa using h
    have hb : last.toNat < 256 := last.toNat_lt
    rw [fromBe_append_singleton, toBe]
    have h1 : (fromBe init * 256 + last.toNat) / 256 = fromBe init := by omega
    have h2 : (fromBe init * 256 + last.toNat) % 256 = last.toNat := by omega
    rw [h1, h2, ih init hl]
    simp

theorem fromLe_lt (bs : Bytes) : fromLe bs < 256 ^ bs.length := by
  induction bs with
  | nil => simp [fromLe]
  | cons b bs ih =>
    have hb : b.toNat < 256 := b.toNat_lt
    simp only [fromLe, List.length_cons, Nat.pow_succ]
    omega

theorem fromLe_toLe (n v : Nat) : fromLe (toLe n v) = v % 256 ^ n := by
  induction n generalizing v with
  | zero => simp [toLe, fromLe, Nat.mod_one]
  | succ n ih =>
    rw [toLe, fromLe, ih]
    have h : (UInt8.ofNat (v % 256)).toNat = v % 256 := by
      simp [UInt8.toNat_ofNat']
    rw [h, Nat.pow_succ, Nat.mul_comm (256 ^ n) 256, Nat.mod_mul]

theorem fromLe_toLe_of_lt {n v : Nat} (h : v < 256 ^ n) : fromLe (toLe n v) = v := by
  rw [fromLe_toLe, Nat.mod_eq_of_lt h]

theorem fromBe_toBe_of_lt {n v : Nat} (h : v < 256 ^ n) : fromBe (toBe n v) = v := by
  rw [fromBe_toBe, Nat.mod_eq_of_lt h]

theorem toLe_fromLe (bs : Bytes) : toLe bs.length (fromLe bs) = bs := by
  induction bs with
  | nil => rfl
  | cons b bs ih =>
    have hb : b.toNat < 256 := b.toNat_lt
    simp only [List.length_cons, toLe, fromLe]
    have h1 : (b.toNat + 256 * fromLe bs) / 256 = fromLe bs := by omega
    have h2 : (b.toNat + 256 * fromLe bs) % 256 = b.toNat := by omega
    rw [h1, h2, ih]
    simp

theorem toLe_inj {n v w : Nat} (hv : v < 256 ^ n) (hw : w < 256 ^ n)
    (h : toLe n v = toLe n w) : v = w := by
  rw [← fromLe_toLe_of_lt hv, ← fromLe_toLe_of_lt hw, h]

theorem toBe_inj {n v w : Nat} (hv : v < 256 ^ n) (hw : w < 256 ^ n)
    (h : toBe n v = toBe n w) : v = w := by
  rw [← fromBe_toBe_of_lt hv, ← fromBe_toBe_of_lt hw, h]

end Verif
