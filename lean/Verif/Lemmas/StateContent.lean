import Verif.Model.StateContent
import Verif.Lemmas.Ssz
import Verif.Lemmas.Wire
import Verif.Lemmas.Distance

namespace Verif.StateContent
open Verif.Ssz

/-- A container that starts with a variable field starts with the length of its fixed part. -/
theorem first_offset_eq {fs : List Field} {bs : Bytes} {vs : List Bytes}
    (h : decodeContainer (.var :: fs) bs = some vs) : fromLe (bs.take 4) = headLen (.var :: fs) := by
  unfold decodeContainer at h
  split at h
  · cases h
  · next slots hr =>
    simp only [register] at hr
    split at hr
    · split at hr
      · next s _ _ =>
        rw [Option.map_eq_some_iff] at hr
        obtain ⟨rest, _, rfl⟩ := hr
        simp only [firstOffset] at h
        split at h
        · next e => exact e
        · cases h
      · cases hr
    · cases hr

theorem sum_length_le {m : Nat} : ∀ (p : List Bytes), (∀ n ∈ p, n.length ≤ m) →
    (p.map List.length).sum ≤ p.length * m
  | [], _ => by simp
  | n :: p, h => by
    have h1 := h n (by simp)
    have h2 := sum_length_le p (fun x hx => h x (by simp [hx]))
    simp only [List.map_cons, List.sum_cons, List.length_cons, Nat.succ_mul]
    omega

theorem mapM_byteList {m : Nat} : ∀ (p : List Bytes), (∀ n ∈ p, n.length ≤ m) →
    p.mapM (decodeByteList m) = some p
  | [], _ => rfl
  | n :: p, h => by
    rw [List.mapM_cons, mapM_byteList p (fun x hx => h x (by simp [hx]))]
    simp [decodeByteList, h n (by simp)]

theorem mapM_byteList_inv {m : Nat} : ∀ (p q : List Bytes), p.mapM (decodeByteList m) = some q →
    q = p ∧ ∀ n ∈ p, n.length ≤ m
  | [], q, h => by cases h; simp
  | n :: p, q, h => by
    rw [List.mapM_cons] at h
    simp only [decodeByteList, Option.bind_eq_bind, Option.bind_eq_some_iff, Option.pure_def] at h
    obtain ⟨a, ha, b, hb, e⟩ := h
    split at ha
    · next hl =>
      cases ha; cases e
      obtain ⟨rfl, h2⟩ := mapM_byteList_inv p b hb
      refine ⟨rfl, ?_⟩
      intro x hx
      rcases List.mem_cons.mp hx with rfl | hx
      · exact hl
      · exact h2 x hx
    · cases ha

theorem proof_length {p : List Bytes} (hl : p.length ≤ 65) (hp : ∀ n ∈ p, n.length ≤ 1024) :
    (encodeVarList p).length ≤ 66820 := by
  rw [encodeVarList_length]
  have := sum_length_le p hp
  have h2 : p.length * 1024 ≤ 65 * 1024 := Nat.mul_le_mul_right _ hl
  omega

theorem decodeProof_encode {p : List Bytes} (hl : p.length ≤ 65) (hp : ∀ n ∈ p, n.length ≤ 1024) :
    decodeProof (encodeVarList p) = some p := by
  have h := proof_length hl hp
  unfold decodeProof
  rw [decode_encodeVarList (max := maxProof) hl (by omega)]
  exact mapM_byteList p hp

theorem encode_decodeProof {bs : Bytes} {p : List Bytes} (h : decodeProof bs = some p) :
    encodeVarList p = bs ∧ p.length ≤ 65 ∧ ∀ n ∈ p, n.length ≤ 1024 := by
  unfold decodeProof at h
  rw [Option.bind_eq_some_iff] at h
  obtain ⟨ns, h1, h2⟩ := h
  obtain ⟨rfl, h3⟩ := mapM_byteList_inv ns p h2
  obtain ⟨h4, h5⟩ := encode_decodeVarList h1
  exact ⟨h4, h5, h3⟩

theorem decodeHash_bytes (b : Id) : decodeHash b.bytes = b := by
  rw [decodeHash, Id.fromBe_bytes]
  exact BitVec.eq_of_toNat_eq (by simp)

theorem bytes_decodeHash {bs : Bytes} (h : bs.length = 32) : (decodeHash bs).bytes = bs := by
  have hlt := fromBe_lt bs
  rw [h] at hlt
  rw [decodeHash, Id.bytes, BitVec.toNat_ofNat, Nat.mod_eq_of_lt (Nat.lt_of_lt_of_le hlt (by decide))]
  have := toBe_fromBe bs
  rw [h] at this
  exact this

theorem decodeByteList_self {m : Nat} {bs : Bytes} (h : bs.length ≤ m) : decodeByteList m bs = some bs := by
  simp [decodeByteList, h]

theorem decodeByteList_inv {m : Nat} {bs cs : Bytes} (h : decodeByteList m bs = some cs) :
    cs = bs ∧ bs.length ≤ m := by
  simp only [decodeByteList] at h
  split at h
  · next hl => cases h; exact ⟨rfl, hl⟩
  · cases h

end Verif.StateContent
