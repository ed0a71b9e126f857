import Verif.Lemmas.BeaconFormat
import Verif.Lemmas.ExceptEq

/-! # C54: beacon content values -/

namespace Verif.Props
open Verif.BeaconValue Verif.Ssz Verif.SszT
open BeaconFormat (Belongs)

/-- Every value decodes from its encoding, under every key of its kind. -/
theorem C54_roundtrip (key : ContentKey.Beacon) (v : Value) (h : Belongs key v) :
    Value.decode key v.encode = .ok v := by
  have hl := value_length v
  cases v with
  | summaries f s =>
    cases key <;> first | cases h | skip
    simp only [Value.decode, Value.encode] at hl ⊢
    rw [decode_encodeSummaries f s hl]; rfl
  | bootstrap v =>
    cases key <;> first | cases h | skip
    simp only [Value.decode, Value.encode] at hl ⊢
    rw [decode_encodeVersioned sound_bootstrap v hl]; rfl
  | updates l =>
    cases key <;> first | cases h | skip
    simp only [Value.decode, Value.encode] at hl ⊢
    rw [decode_encodeUpdates l hl]; rfl
  | optimistic v =>
    cases key <;> first | cases h | skip
    simp only [Value.decode, Value.encode] at hl ⊢
    rw [decode_encodeVersioned sound_optimistic v hl]; rfl
  | finality v =>
    cases key <;> first | cases h | skip
    simp only [Value.decode, Value.encode] at hl ⊢
    rw [decode_encodeVersioned sound_finality v hl]; rfl

/-- Whatever decodes is the encoding of the result, which is of the kind of the key: no two byte strings
stand for one value. -/
theorem C54_canonical (key : ContentKey.Beacon) (bs : Bytes) (v : Value) (h : Value.decode key bs = .ok v) :
    Belongs key v ∧ v.encode = bs := by
  cases key with
  | bootstrap k =>
    simp only [Value.decode] at h
    cases hd : decodeVersioned bootstrapCodec bs with
    | error e => rw [hd] at h; cases h
    | ok x => rw [hd] at h; cases h; exact ⟨trivial, encode_decodeVersioned sound_bootstrap hd⟩
  | updatesByRange s c =>
    simp only [Value.decode] at h
    cases hd : decodeUpdates bs with
    | error e => rw [hd] at h; cases h
    | ok x => rw [hd] at h; cases h; exact ⟨trivial, encode_decodeUpdates hd⟩
  | finalityUpdate k =>
    simp only [Value.decode] at h
    cases hd : decodeVersioned finalityCodec bs with
    | error e => rw [hd] at h; cases h
    | ok x => rw [hd] at h; cases h; exact ⟨trivial, encode_decodeVersioned sound_finality hd⟩
  | optimisticUpdate k =>
    simp only [Value.decode] at h
    cases hd : decodeVersioned optimisticCodec bs with
    | error e => rw [hd] at h; cases h
    | ok x => rw [hd] at h; cases h; exact ⟨trivial, encode_decodeVersioned sound_optimistic hd⟩
  | historicalSummaries k =>
    simp only [Value.decode] at h
    cases hd : decodeSummaries bs with
    | error e => rw [hd] at h; cases h
    | ok x => rw [hd] at h; cases h; exact ⟨trivial, encode_decodeSummaries hd⟩

/-- The bytes of every value: the layout of the specification. -/
theorem C54_format (v : Value) : v.encode = BeaconFormat.value v := value_format v

/-- So a byte string decodes exactly when it has the layout of some value of that kind. -/
theorem C54_accepts (key : ContentKey.Beacon) (bs : Bytes) (v : Value) :
    Value.decode key bs = .ok v ↔ Belongs key v ∧ bs = BeaconFormat.value v := by
  constructor
  · intro h
    obtain ⟨h1, h2⟩ := C54_canonical key bs v h
    exact ⟨h1, by rw [← h2, C54_format]⟩
  · rintro ⟨h1, rfl⟩
    rw [← C54_format]
    exact C54_roundtrip key v h1

/-- A value of one of the four kinds with a digest in front is refused when the digest is of no known
fork. -/
theorem C54_unknown_fork (key : ContentKey.Beacon) (bs : Bytes) (hk : ∀ s c, key ≠ .updatesByRange s c)
    (hl : 4 ≤ bs.length) (hd : ∀ f, bs.take 4 ≠ BeaconFormat.digest f) :
    Value.decode key bs = .error .malformed := by
  have hn : Fork.ofDigest (bs.take 4) = none := by
    cases h : Fork.ofDigest (bs.take 4) with
    | none => rfl
    | some f => exact absurd ((digest_ofDigest h).symm.trans (digest_format f)) (hd f)
  have hl' : ¬ bs.length < 4 := by omega
  cases key with
  | updatesByRange s c => exact absurd rfl (hk s c)
  | bootstrap k => simp only [Value.decode, decodeVersioned, if_neg hl', hn]; rfl
  | finalityUpdate k => simp only [Value.decode, decodeVersioned, if_neg hl', hn]; rfl
  | optimisticUpdate k => simp only [Value.decode, decodeVersioned, if_neg hl', hn]; rfl
  | historicalSummaries k => simp only [Value.decode, decodeSummaries, if_neg hl', hn]; rfl

/-- Which values of the kinds with one digest abort the decoder: those shorter than it, other than
summaries. -/
theorem C54_abort (key : ContentKey.Beacon) (bs : Bytes) (hk : ∀ s c, key ≠ .updatesByRange s c) :
    Value.decode key bs = .error .abort ↔ bs.length < 4 ∧ ∀ e, key ≠ .historicalSummaries e := by
  cases key with
  | updatesByRange s c => exact absurd rfl (hk s c)
  | bootstrap k => simp only [Value.decode, map_abort, versioned_abort]; simp
  | finalityUpdate k => simp only [Value.decode, map_abort, versioned_abort]; simp
  | optimisticUpdate k => simp only [Value.decode, map_abort, versioned_abort]; simp
  | historicalSummaries k =>
    simp only [Value.decode, map_abort]
    constructor
    · intro h
      unfold decodeSummaries at h
      split at h
      · cases h
      · split at h
        · cases h
        · split at h <;> cases h
    · rintro ⟨-, h⟩; exact absurd rfl (h k)

/-- A list of updates aborts the decoder exactly when, behind updates that decode, it has an item shorter than
a digest. -/
theorem C54_abort_range (s c : UInt64) (items : List Bytes) (h : items.length ≤ 128)
    (hl : (BeaconFormat.list items).length < 2 ^ 32) :
    Value.decode (.updatesByRange s c) (BeaconFormat.list items) = .error .abort ↔
      ∃ pre b post, items = pre ++ b :: post ∧ b.length < 4 ∧
        ∀ a ∈ pre, ∃ (f : Fork) (u : Update f), a = BeaconFormat.digest f ++ BeaconFormat.update f u := by
  have hspec := decodeRange_spec (decodeVersioned updateCodec) 128 (BeaconFormat.list items)
  have hd : decodeVarList 128 (BeaconFormat.list items) = some items := by
    rw [← list_format] at hl ⊢; exact decode_encodeVarList h hl
  rw [hd] at hspec
  simp only at hspec
  simp only [Value.decode, map_abort]
  have h1 : decodeUpdates (BeaconFormat.list items) = .error .abort ↔
      itemsE (decodeVersioned updateCodec) items = .error .abort := by
    unfold decodeUpdates
    rw [hspec]
    cases itemsE (decodeVersioned updateCodec) items with
    | error e => simp
    | ok l =>
      simp only [reduceCtorEq, iff_false]
      cases toBList 128 l <;> simp [ofOption]
  rw [h1, itemsE_abort]
  have hu : ∀ a : Bytes, (∃ u : Versioned Update, a = encodeVersioned updateCodec u) ↔
      ∃ (f : Fork) (u : Update f), a = BeaconFormat.digest f ++ BeaconFormat.update f u := by
    intro a
    constructor
    · rintro ⟨⟨f, u⟩, rfl⟩
      exact ⟨f, u, by simp only [encodeVersioned, update_format, digest_format]⟩
    · rintro ⟨f, u, rfl⟩
      exact ⟨⟨f, u⟩, by simp only [encodeVersioned, update_format, digest_format]⟩
  simp only [hu]

/-- Decoding is not total: short values sent by a peer abort it, instead of being refused. -/
theorem C54_total_violated :
    Value.decode (.bootstrap 0) [] = .error .abort ∧
    Value.decode (.finalityUpdate 0) [0xad, 0x53, 0x2c] = .error .abort ∧
    Value.decode (.optimisticUpdate 0) [] = .error .abort ∧
    Value.decode (.updatesByRange 0 1) [4, 0, 0, 0] = .error .abort :=
  ⟨rfl, rfl, rfl, rfl⟩

/-! Concrete values. -/

def sampleOptimistic (slot : UInt64) : Value :=
  .optimistic ⟨.bellatrix, ⟨⟨⟨7, 3, 1, 2, 3⟩, ()⟩,
    ⟨⟨List.replicate 64 0xff, by decide⟩, ⟨List.replicate 96 1, by decide⟩⟩, slot⟩⟩

def sampleSummaries : Value :=
  .summaries .electra ⟨9, ⟨[⟨1, 2⟩, ⟨3, 4⟩], by decide⟩, ⟨[1, 2, 3, 4, 5, 6], by decide⟩⟩

example : Belongs (.optimisticUpdate 8) (sampleOptimistic 8) := trivial
example : (sampleOptimistic 8).encode.length = 4 + 112 + 160 + 8 := by decide +kernel
example : (sampleOptimistic 8).encode.take 12 = [0x4a, 0x26, 0xc5, 0x8b, 7, 0, 0, 0, 0, 0, 0, 0] := by
  decide +kernel
example : Value.decode (.optimisticUpdate 8) (sampleOptimistic 8).encode = .ok (sampleOptimistic 8) :=
  C54_roundtrip _ _ trivial
example : Value.decode (.historicalSummaries 1) sampleSummaries.encode = .ok sampleSummaries :=
  C54_roundtrip _ _ trivial
example : sampleSummaries.encode.length = 4 + 8 + 4 + 6 * 32 + 2 * 64 := by decide +kernel
example : Value.decode (.bootstrap 0) [1, 2, 3, 4, 5] = .error .malformed :=
  C54_unknown_fork _ _ (by intros; simp) (by decide) (by intro f; cases f <;> decide)
example : ∃ items : List Bytes, items.length ≤ 128 ∧ (BeaconFormat.list items).length < 2 ^ 32 ∧
    ∃ pre b post, items = pre ++ b :: post ∧ b.length < 4 ∧
      ∀ a ∈ pre, ∃ (f : Fork) (u : Update f), a = BeaconFormat.digest f ++ BeaconFormat.update f u :=
  ⟨[[], [1]], by decide, by decide, [], [], [[1]], rfl, by decide, by simp⟩

end Verif.Props
