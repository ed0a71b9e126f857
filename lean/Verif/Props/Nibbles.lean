import Verif.Model.Nibbles
import Verif.Lemmas.Nibbles

/-!
# C08: trie path encoding

Specification: a path is a list of at most 64 numbers below 16.
-/

namespace Verif.Props
open Verif.Nibbles

/-- The paths the type admits. -/
def IsPath (ns : Bytes) : Prop := ns.length ≤ 64 ∧ ∀ n ∈ ns, n.toNat < 16

/-- The constructor admits exactly the paths and changes nothing. -/
theorem C08_constructor (ns : Bytes) :
    (IsPath ns → tryFromUnpacked ns = some ns) ∧
    (¬ IsPath ns → tryFromUnpacked ns = none) := by
  constructor
  · rintro ⟨h1, h2⟩
    exact tryFromUnpacked_eq_some.mpr ⟨rfl, h1, fun n hn => by have := h2 n hn; omega⟩
  · intro h
    cases hc : tryFromUnpacked ns with
    | none => rfl
    | some ms =>
      obtain ⟨_, h1, h2⟩ := tryFromUnpacked_eq_some.mp hc
      exact absurd ⟨h1, fun n hn => by have := h2 n hn; omega⟩ h

/-- Every path is restored by decoding its encoding. -/
theorem C08_roundtrip (ns : Bytes) (h : IsPath ns) : decode (encode ns) = some ns := by
  have hle : ∀ n ∈ ns, n.toNat ≤ 15 := fun n hn => by have := h.2 n hn; omega
  unfold encode
  split
  · rename_i he
    have h0 : unpackPair 0 = (0, 0) := by decide
    simp only [decode, h0, ne_eq, not_true, if_false, if_true]
    rw [unpackAll_packAll ns he hle]
    exact tryFromUnpacked_eq_some.mpr ⟨rfl, h.1, hle⟩
  · rename_i ho
    match ns, ho with
    | [], ho => simp at ho
    | n :: rest, ho =>
      have hn := hle n (by simp)
      simp only [decode, flag_byte hn, if_true]
      rw [if_neg (by decide), unpackAll_packAll rest (by simp at ho; omega)
        (fun m hm => hle m (by simp [hm]))]
      exact tryFromUnpacked_eq_some.mpr ⟨rfl, h.1, hle⟩

/-- Decoding accepts only the encoding of the path it returns, and returns only paths. -/
theorem C08_canonical (bs ns : Bytes) (h : decode bs = some ns) : IsPath ns ∧ encode ns = bs := by
  unfold decode at h
  split at h
  · simp at h
  · rename_i first packed
    have hpk := pack_unpack first
    simp only at h
    split at h
    · rename_i hf
      split at h
      · simp at h
      · rename_i hlow
        have hlow' : (unpackPair first).2 = 0 := by simpa using hlow
        obtain ⟨rfl, h1, h2⟩ := tryFromUnpacked_eq_some.mp h
        refine ⟨⟨h1, fun n hn => by have := h2 n hn; omega⟩, ?_⟩
        unfold encode
        rw [if_pos (by rw [unpackAll_length]; omega), packAll_unpackAll]
        rw [hf, hlow'] at hpk
        rw [← hpk]; rfl
    · split at h
      · rename_i hf
        obtain ⟨rfl, h1, h2⟩ := tryFromUnpacked_eq_some.mp h
        refine ⟨⟨h1, fun n hn => by have := h2 n hn; omega⟩, ?_⟩
        unfold encode
        rw [if_neg (by rw [List.length_cons, unpackAll_length]; omega)]
        simp only [packAll_unpackAll]
        rw [hf] at hpk
        conv => rhs; rw [← hpk]
        rfl
      · simp at h

/-- Different paths have different encodings. -/
theorem C08_injective (ns ms : Bytes) (hn : IsPath ns) (hm : IsPath ms)
    (h : encode ns = encode ms) : ns = ms := by
  have h1 := C08_roundtrip ns hn
  rw [h, C08_roundtrip ms hm] at h1
  exact (Option.some.inj h1).symm

/- Test vectors of the repository (nibbles.rs tests). -/
example : encode [1, 2, 3, 4, 5, 6, 7, 8, 9, 10, 11, 12, 13] =
    [0x11, 0x23, 0x45, 0x67, 0x89, 0xab, 0xcd] := by decide
example : encode [] = [0] := by decide
example : IsPath [1, 2, 3, 4, 5, 6, 7, 8, 9, 10, 11, 12, 13] := by
  constructor <;> decide
example : decode [0x2a] = none ∧ decode [0x0a] = none ∧ decode [0x1a] = some [10] := by decide

theorem packAll_getElem? : ∀ (ns : Bytes) (i : Nat),
    (packAll ns)[i]? = match ns[2 * i]?, ns[2 * i + 1]? with
      | some a, some b => some (packPair a b)
      | _, _ => none
  | [], i => by simp [packAll]
  | [a], i => by cases i <;> simp [packAll]
  | a :: b :: rest, 0 => by simp [packAll]
  | a :: b :: rest, i + 1 => by
    rw [packAll, List.getElem?_cons_succ, packAll_getElem? rest i,
      show 2 * (i + 1) = 2 * i + 1 + 1 by omega]
    simp only [List.getElem?_cons_succ]

/-- The encoding is the one of the specification. Even length: a zero byte, then two nibbles in each
byte, high nibble first. Odd length: 16 plus the first nibble, then the rest in the same way. -/
theorem C08_format (ns : Bytes) (h : IsPath ns) :
    (encode ns)[0]?.map UInt8.toNat = some (if ns.length % 2 = 0 then 0 else 16 + (ns.head?.getD 0).toNat) ∧
    ∀ i a b, ns[2 * i + ns.length % 2]? = some a → ns[2 * i + 1 + ns.length % 2]? = some b →
      ((encode ns)[i + 1]?).map UInt8.toNat = some (16 * a.toNat + b.toNat) := by
  have hpk : ∀ a b : UInt8, a.toNat < 16 → b.toNat < 16 →
      (packPair a b).toNat = 16 * a.toNat + b.toNat := fun a b ha hb => by
    rw [packPair_toNat (by omega) (by omega)]; omega
  have hmem : ∀ (l : Bytes) (i : Nat) (a : UInt8), l[i]? = some a → a ∈ l :=
    fun l i a e => List.mem_of_getElem? e
  unfold encode
  by_cases he : ns.length % 2 = 0
  · rw [if_pos he, if_pos he]
    refine ⟨rfl, ?_⟩
    intro i a b ha hb
    rw [he] at ha hb
    simp only [Nat.add_zero] at ha hb
    rw [List.getElem?_cons_succ, packAll_getElem?, ha, hb]
    simp only [Option.map_some, hpk a b (h.2 a (hmem _ _ _ ha)) (h.2 b (hmem _ _ _ hb))]
  · rw [if_neg he, if_neg he]
    cases ns with
    | nil => simp at he
    | cons n rest =>
      have hn := h.2 n (by simp)
      have ho : (n :: rest).length % 2 = 1 := by omega
      refine ⟨?_, ?_⟩
      · have : (0x10 ||| n : UInt8) = packPair 1 n := rfl
        simp only [List.getElem?_cons_zero, Option.map_some, this,
          hpk 1 n (by decide) hn, List.head?_cons, Option.getD_some]
        rfl
      · intro i a b ha hb
        rw [ho] at ha hb
        simp only [List.getElem?_cons_succ] at ha hb ⊢
        rw [packAll_getElem?, ha, hb]
        simp only [Option.map_some, hpk a b (h.2 a (by simp [hmem _ _ _ ha]))
          (h.2 b (by simp [hmem _ _ _ hb]))]

end Verif.Props
