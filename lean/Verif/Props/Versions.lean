import Verif.Model.Versions
import Verif.Lemmas.Versions

/-! # C18: protocol version negotiation

`record = some bs` means that the peer's node record carries the version list `bs` (one byte per
version). Versions are compared by their number `toByte`. -/

namespace Verif.Props
open Verif.Versions

/-- A chosen version is supported by this node, is one of the peer's listed version numbers, and no
common version number is higher. -/
theorem C18_greatest_common (own : List Version) (hsorted : isStrictlySortedAndSpecified own = true)
    (record : Bytes) (v : Version) (h : latestCommon own (some record) = .ok v) :
    v ∈ own ∧ v.toByte ∈ record ∧
    ∀ w ∈ own, w.toByte ∈ record → w.toByte.toNat ≤ v.toByte.toNat := by
  obtain ⟨hspec, hpw, -⟩ := sortedFrom_spec none own hsorted
  unfold latestCommon decodeList at h
  simp only at h
  split at h
  · cases h
  · next other hdec =>
    split at hdec
    · simp only [Option.some.injEq] at hdec
      split at h
      · next u hf =>
        simp only [Except.ok.injEq] at h
        subst h
        have hmem := List.mem_of_find?_eq_some hf
        have hp := List.find?_some hf
        simp only [List.contains_iff_mem] at hp
        have back : ∀ x : Version, x ∈ other → x.toByte ∈ record := by
          intro x hx
          rw [← hdec, List.mem_map] at hx
          obtain ⟨n, hn, rfl⟩ := hx
          rw [toByte_ofByte]; exact hn
        refine ⟨by simpa using hmem, back u hp, ?_⟩
        intro w hw hwr
        refine find_reverse_greatest hpw hf w hw ?_
        rw [List.contains_iff_mem, ← hdec, List.mem_map]
        exact ⟨w.toByte, hwr, ofByte_toByte (hspec w hw)⟩
      · cases h
    · cases hdec

/-- The error "no common version" is reported exactly when the lists share no version, and a
well-formed record never leads to another error. -/
theorem C18_no_common_iff (own : List Version) (hspec : ∀ v ∈ own, Specified v) (record : Bytes)
    (hlen : record.length ≤ 8) :
    (latestCommon own (some record) = .error .noMatchingVersion ↔
      ∀ v ∈ own, v.toByte ∉ record) ∧
    latestCommon own (some record) ≠ .error .failedToDecode := by
  have hd : decodeList record = some (record.map Version.ofByte) := by
    unfold decodeList; rw [if_pos hlen]
  unfold latestCommon
  simp only [hd]
  have hmem : ∀ v ∈ own, ((record.map Version.ofByte).contains v = true ↔ v.toByte ∈ record) := by
    intro v hv
    rw [List.contains_iff_mem, List.mem_map]
    constructor
    · rintro ⟨n, hn, rfl⟩; rw [toByte_ofByte]; exact hn
    · intro h; exact ⟨_, h, ofByte_toByte (hspec v hv)⟩
  cases hf : own.reverse.find? (fun v => (record.map Version.ofByte).contains v) with
  | some u =>
    refine ⟨⟨fun h => by simp at h, fun h => ?_⟩, by simp⟩
    have h1 := List.mem_of_find?_eq_some hf
    have h2 := List.find?_some hf
    simp only [List.mem_reverse] at h1
    exact absurd ((hmem u h1).1 h2) (h u h1)
  | none =>
    refine ⟨⟨fun _ v hv hr => ?_, fun _ => rfl⟩, by simp⟩
    have := List.find?_eq_none.1 hf v (by simpa using hv)
    exact this ((hmem v hv).2 hr)

/-- An over-long record is an error. -/
theorem C18_malformed (own : List Version) (record : Bytes) (hlen : 8 < record.length) :
    latestCommon own (some record) = .error .failedToDecode := by
  unfold latestCommon decodeList
  simp only
  rw [if_neg (by omega)]

/-- Two nodes that advertise their supported lists agree on the version: each side computes the same
answer from the other's record. -/
theorem C18_symmetric (a b : List Version) (ha : isStrictlySortedAndSpecified a = true)
    (hb : isStrictlySortedAndSpecified b = true) (hla : a.length ≤ 8) (hlb : b.length ≤ 8) :
    latestCommon a (some (encodeList b)) = latestCommon b (some (encodeList a)) := by
  obtain ⟨hsa, -, -⟩ := sortedFrom_spec none a ha
  obtain ⟨hsb, -, -⟩ := sortedFrom_spec none b hb
  have la : (encodeList a).length ≤ 8 := by simpa [encodeList] using hla
  have lb : (encodeList b).length ≤ 8 := by simpa [encodeList] using hlb
  have memEnc : ∀ l v, (∀ w ∈ l, Specified w) → Specified v →
      (v.toByte ∈ encodeList l ↔ v ∈ l) := by
    intro l v hl hv
    unfold encodeList
    rw [List.mem_map]
    constructor
    · rintro ⟨w, hw, hwv⟩
      have := congrArg Version.ofByte hwv
      rw [ofByte_toByte (hl w hw), ofByte_toByte hv] at this
      rw [← this]; exact hw
    · intro h; exact ⟨v, h, rfl⟩
  obtain ⟨ia, na⟩ := C18_no_common_iff a hsa (encodeList b) lb
  obtain ⟨ib, nb⟩ := C18_no_common_iff b hsb (encodeList a) la
  cases h1 : latestCommon a (some (encodeList b)) with
  | error e =>
    cases e with
    | failedToDecode => exact absurd h1 na
    | noMatchingVersion =>
      symm
      rw [ib]
      intro v hv hmem
      rw [memEnc a v hsa (hsb v hv)] at hmem
      exact ia.1 h1 v hmem ((memEnc b v hsb (hsb v hv)).2 hv)
  | ok v =>
    obtain ⟨hv1, hv2, hv3⟩ := C18_greatest_common a ha _ v h1
    rw [memEnc b v hsb (hsa v hv1)] at hv2
    cases h2 : latestCommon b (some (encodeList a)) with
    | error e =>
      cases e with
      | failedToDecode => exact absurd h2 nb
      | noMatchingVersion =>
        exact absurd ((memEnc a v hsa (hsa v hv1)).2 hv1) (ib.1 h2 v hv2)
    | ok w =>
      obtain ⟨hw1, hw2, hw3⟩ := C18_greatest_common b hb _ w h2
      rw [memEnc a w hsa (hsb w hw1)] at hw2
      have e1 := hv3 w hw2 ((memEnc b w hsb (hsb w hw1)).2 hw1)
      have e2 := hw3 v hv2 ((memEnc a v hsa (hsa v hv1)).2 hv1)
      have e3 : v.toByte = w.toByte := UInt8.toNat_inj.1 (Nat.le_antisymm e2 e1)
      have e4 := congrArg Version.ofByte e3
      rw [ofByte_toByte (hsa v hv1), ofByte_toByte (hsb w hw1)] at e4
      rw [e4]

/-- A peer without a version record counts as version 0. -/
theorem C18_missing_is_v0 (own : List Version) : latestCommon own none = .ok .v0 := rfl

/-- The code violates "never a guess" for a node that does not support version 0 (the built-in
Sepolia network): against a peer without a record it settles on a version it does not support. -/
theorem C18_missing_record_violated :
    isStrictlySortedAndSpecified sepolia = true ∧
    ∃ v, latestCommon sepolia none = .ok v ∧ v ∉ sepolia := by
  refine ⟨by decide, .v0, rfl, by decide⟩

/-- What does hold without a record: if the node supports version 0, so does the answer. -/
theorem C18_supported_partial (own : List Version) (h0 : Version.v0 ∈ own) (record : Option Bytes)
    (v : Version) (h : latestCommon own record = .ok v) : v ∈ own := by
  cases record with
  | none => cases h; exact h0
  | some bs =>
    unfold latestCommon at h
    simp only at h
    split at h
    · cases h
    · split at h
      · next u hf => cases h; simpa using List.mem_of_find?_eq_some hf
      · cases h

/-- Version lists survive the record's encoding. -/
theorem C18_record_roundtrip (vs : List Version) (hs : ∀ v ∈ vs, Specified v)
    (hl : vs.length ≤ 8) : decodeList (encodeList vs) = some vs := by
  unfold decodeList encodeList
  rw [if_pos (by simpa using hl), List.map_map]
  congr 1
  conv => rhs; rw [← List.map_id vs]
  apply List.map_congr_left
  intro v hv
  exact ofByte_toByte (hs v hv)

example : isStrictlySortedAndSpecified mainnet = true ∧
    latestCommon mainnet (some [0, 1, 7]) = .ok .v1 := ⟨by decide, rfl⟩
example : isStrictlySortedAndSpecified angelfood = true ∧
    latestCommon angelfood (some (encodeList sepolia)) = .error .noMatchingVersion :=
  ⟨by decide, rfl⟩

end Verif.Props
