import Verif.Model.Nibbles
import Verif.Lemmas.Bytes

namespace Verif.Nibbles

theorem shl4_toNat {a : UInt8} (h : a.toNat ≤ 15) : (a <<< 4).toNat = a.toNat * 16 := by
  rw [UInt8.toNat_shiftLeft]
  have : (4 : UInt8).toNat % 8 = 4 := by decide
  rw [this, Nat.shiftLeft_eq]
  omega

theorem packPair_toNat {a b : UInt8} (ha : a.toNat ≤ 15) (hb : b.toNat ≤ 15) :
    (packPair a b).toNat = a.toNat * 16 + b.toNat := by
  rw [packPair, UInt8.toNat_or, shl4_toNat ha]
  have h := Nat.shiftLeft_add_eq_or_of_lt (a := a.toNat) (b := b.toNat) (i := 4) (by omega)
  rw [Nat.shiftLeft_eq] at h
  simpa using h.symm

theorem unpack_fst_toNat (p : UInt8) : (unpackPair p).1.toNat = p.toNat / 16 := by
  simp only [unpackPair, UInt8.toNat_shiftRight]
  have : (4 : UInt8).toNat % 8 = 4 := by decide
  rw [this, Nat.shiftRight_eq_div_pow]

theorem unpack_snd_toNat (p : UInt8) : (unpackPair p).2.toNat = p.toNat % 16 := by
  simp only [unpackPair, UInt8.toNat_and]
  exact Nat.and_two_pow_sub_one_eq_mod p.toNat 4

theorem unpack_pack {a b : UInt8} (ha : a.toNat ≤ 15) (hb : b.toNat ≤ 15) :
    unpackPair (packPair a b) = (a, b) := by
  have h := packPair_toNat ha hb
  apply Prod.ext
  · apply UInt8.toNat_inj.mp; rw [unpack_fst_toNat, h]; simp; omega
  · apply UInt8.toNat_inj.mp; rw [unpack_snd_toNat, h]; simp; omega

theorem pack_unpack (p : UInt8) : packPair (unpackPair p).1 (unpackPair p).2 = p := by
  have hp : p.toNat < 256 := p.toNat_lt
  apply UInt8.toNat_inj.mp
  rw [packPair_toNat]
  · rw [unpack_fst_toNat, unpack_snd_toNat]; omega
  · rw [unpack_fst_toNat]; omega
  · rw [unpack_snd_toNat]; omega

theorem unpackAll_packAll (ns : Bytes) (he : ns.length % 2 = 0) (h : ∀ n ∈ ns, n.toNat ≤ 15) :
    unpackAll (packAll ns) = ns := by
  fun_induction packAll ns with
  | case1 a b rest ih =>
    have ha := h a (by simp)
    have hb := h b (by simp)
    simp only [unpackAll, unpack_pack ha hb]
    rw [ih (by simp at he; omega) (fun n hn => h n (by simp [hn]))]
  | case2 ns hne =>
    match ns with
    | [] => rfl
    | [a] => simp at he
    | a :: b :: rest => exact absurd rfl (hne a b rest)

theorem packAll_unpackAll (bs : Bytes) : packAll (unpackAll bs) = bs := by
  induction bs with
  | nil => rfl
  | cons p bs ih => simp only [unpackAll, packAll, ih, pack_unpack]

theorem unpackAll_length (bs : Bytes) : (unpackAll bs).length = 2 * bs.length := by
  induction bs with
  | nil => rfl
  | cons p bs ih => simp only [unpackAll, List.length_cons, ih]; omega

theorem unpackAll_le (bs : Bytes) : ∀ n ∈ unpackAll bs, n.toNat ≤ 15 := by
  induction bs with
  | nil => simp [unpackAll]
  | cons p bs ih =>
    have hp : p.toNat < 256 := p.toNat_lt
    intro n hn
    simp only [unpackAll, List.mem_cons] at hn
    rcases hn with rfl | rfl | hn
    · rw [unpack_fst_toNat]; omega
    · rw [unpack_snd_toNat]; omega
    · exact ih n hn

theorem tryFromUnpacked_eq_some {ns ms : Bytes} :
    tryFromUnpacked ns = some ms ↔ ns = ms ∧ ns.length ≤ 64 ∧ ∀ n ∈ ns, n.toNat ≤ 15 := by
  unfold tryFromUnpacked
  have hall : ns.all (fun n => decide (n ≤ 0xF)) = true ↔ ∀ n ∈ ns, n.toNat ≤ 15 := by
    rw [List.all_eq_true]
    constructor
    · intro h n hn
      have := h n hn
      simp only [decide_eq_true_eq] at this
      exact UInt8.le_iff_toNat_le.mp this
    · intro h n hn
      simp only [decide_eq_true_eq]
      exact UInt8.le_iff_toNat_le.mpr (h n hn)
  constructor
  · intro h
    split at h
    · simp at h
    · split at h
      · rename_i h1 h2
        exact ⟨Option.some.inj h, by omega, hall.mp h2⟩
      · simp at h
  · rintro ⟨rfl, h1, h2⟩
    rw [if_neg (by omega), if_pos (hall.mpr h2)]

theorem flag_byte {n : UInt8} (h : n.toNat ≤ 15) :
    unpackPair (0x10 ||| n) = (1, n) := by
  have : (0x10 : UInt8) ||| n = packPair 1 n := rfl
  rw [this, unpack_pack (by decide) h]

end Verif.Nibbles
