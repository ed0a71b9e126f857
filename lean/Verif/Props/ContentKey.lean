import Verif.Lemmas.ContentKey

/-! # C06: content keys

Specification. The bytes of a key are its selector byte followed by the SSZ encoding of its fields;
decoding is the inverse. The only field with a restricted set of values is the trie path
(`IsPath`: at most 64 nibbles), which is what the `Nibbles` type guarantees. -/

namespace Verif.Props
open Verif.ContentKey

/-- Keys that the types of the code can represent. -/
def ValidStateKey : State → Prop
  | .accountTrieNode p _ => IsPath p
  | .storageTrieNode _ p _ => IsPath p
  | .bytecode _ _ => True

/-! ## history keys -/

/-- Decoding the bytes of a key gives the key back. -/
theorem C06_history_roundtrip (k : History) : History.ofBytes k.toBytes = some k := by
  cases k with
  | blockBody n =>
    simp [History.toBytes, History.ofBytes, dec1_enc1 lawful_u64 (x := n) trivial (by rw [enc1_u64_length]; decide)]
  | blockReceipts n =>
    simp [History.toBytes, History.ofBytes, dec1_enc1 lawful_u64 (x := n) trivial (by rw [enc1_u64_length]; decide)]

/-- Two different keys never have the same bytes. -/
theorem C06_history_injective (k₁ k₂ : History) (h : k₁.toBytes = k₂.toBytes) : k₁ = k₂ := by
  have e := C06_history_roundtrip k₁
  rw [h, C06_history_roundtrip k₂] at e
  exact (Option.some.inj e).symm

/-- A byte string that decodes is the bytes of the key it decoded to: wrong lengths, offsets or
trailing bytes are rejected. -/
theorem C06_history_strict (bs : Bytes) (k : History) (h : History.ofBytes bs = some k) :
    k.toBytes = bs := by
  match bs, h with
  | sel :: key, h =>
    simp only [History.ofBytes] at h
    split at h
    · next e =>
      subst e
      cases hd : dec1 u64 key with
      | none => rw [hd] at h; cases h
      | some x =>
        rw [hd] at h; cases h
        have := enc1_dec1 lawful_u64 hd
        rw [History.toBytes, this.2]
    split at h
    · next e =>
      subst e
      cases hd : dec1 u64 key with
      | none => rw [hd] at h; cases h
      | some x =>
        rw [hd] at h; cases h
        have := enc1_dec1 lawful_u64 hd
        rw [History.toBytes, this.2]
    · cases h

/-- An unknown selector, or no bytes at all, is rejected. -/
theorem C06_history_unknown_selector : History.ofBytes [] = none ∧
    ∀ (sel : UInt8) (key : Bytes), sel ∉ [0x00, 0x01] → History.ofBytes (sel :: key) = none := by
  refine ⟨rfl, ?_⟩
  intro sel key h
  simp only [List.mem_cons, List.not_mem_nil, or_false, not_or] at h
  simp [History.ofBytes, h]

/-! ## legacy keys -/

/-- Decoding the bytes of a key gives the key back. -/
theorem C06_legacy_roundtrip (k : Legacy) : Legacy.ofBytes k.toBytes = some k := by
  have hh : ∀ h : Id, dec1 hash (enc1 hash h) = some h := fun h =>
    dec1_enc1 lawful_hash trivial (by rw [enc1_hash_length]; decide)
  cases k with
  | headerByHash h => simp [Legacy.toBytes, Legacy.ofBytes, hh]
  | blockBody h => simp [Legacy.toBytes, Legacy.ofBytes, hh]
  | blockReceipts h => simp [Legacy.toBytes, Legacy.ofBytes, hh]
  | ephemeralOffer h => simp [Legacy.toBytes, Legacy.ofBytes, hh]
  | headerByNumber n =>
    simp [Legacy.toBytes, Legacy.ofBytes, dec1_enc1 lawful_u64 (x := n) trivial (by rw [enc1_u64_length]; decide)]
  | ephemeralFind h a =>
    simp [Legacy.toBytes, Legacy.ofBytes, dec2_enc2 lawful_hash lawful_u8 (x := h) (y := a) trivial
      trivial (by rw [enc2_hash_u8_length]; decide)]

/-- Two different keys never have the same bytes. -/
theorem C06_legacy_injective (k₁ k₂ : Legacy) (h : k₁.toBytes = k₂.toBytes) : k₁ = k₂ := by
  have e := C06_legacy_roundtrip k₁
  rw [h, C06_legacy_roundtrip k₂] at e
  exact (Option.some.inj e).symm

/-- A byte string that decodes is the bytes of the key it decoded to: wrong lengths, offsets or
trailing bytes are rejected. -/
theorem C06_legacy_strict (bs : Bytes) (k : Legacy) (h : Legacy.ofBytes bs = some k) :
    k.toBytes = bs := by
  match bs, h with
  | sel :: key, h =>
    simp only [Legacy.ofBytes] at h
    split at h
    · next e =>
      subst e
      cases hd : dec1 hash key with
      | none => rw [hd] at h; cases h
      | some x =>
        rw [hd] at h; cases h
        have := enc1_dec1 lawful_hash hd
        rw [Legacy.toBytes, this.2]
    split at h
    · next e =>
      subst e
      cases hd : dec1 hash key with
      | none => rw [hd] at h; cases h
      | some x =>
        rw [hd] at h; cases h
        have := enc1_dec1 lawful_hash hd
        rw [Legacy.toBytes, this.2]
    split at h
    · next e =>
      subst e
      cases hd : dec1 hash key with
      | none => rw [hd] at h; cases h
      | some x =>
        rw [hd] at h; cases h
        have := enc1_dec1 lawful_hash hd
        rw [Legacy.toBytes, this.2]
    split at h
    · next e =>
      subst e
      cases hd : dec1 u64 key with
      | none => rw [hd] at h; cases h
      | some x =>
        rw [hd] at h; cases h
        have := enc1_dec1 lawful_u64 hd
        rw [Legacy.toBytes, this.2]
    split at h
    · next e =>
      subst e
      cases hd : dec2 hash u8 key with
      | none => rw [hd] at h; cases h
      | some x =>
        rw [hd] at h; cases h
        have := enc2_dec2 lawful_hash lawful_u8 hd
        rw [Legacy.toBytes, this.2.2]
    split at h
    · next e =>
      subst e
      cases hd : dec1 hash key with
      | none => rw [hd] at h; cases h
      | some x =>
        rw [hd] at h; cases h
        have := enc1_dec1 lawful_hash hd
        rw [Legacy.toBytes, this.2]
    · cases h

/-- An unknown selector, or no bytes at all, is rejected. -/
theorem C06_legacy_unknown_selector : Legacy.ofBytes [] = none ∧
    ∀ (sel : UInt8) (key : Bytes), sel ∉ [0x00, 0x01, 0x02, 0x03, 0x04, 0x05] → Legacy.ofBytes (sel :: key) = none := by
  refine ⟨rfl, ?_⟩
  intro sel key h
  simp only [List.mem_cons, List.not_mem_nil, or_false, not_or] at h
  simp [Legacy.ofBytes, h]

/-! ## beacon keys -/

/-- Decoding the bytes of a key gives the key back. -/
theorem C06_beacon_roundtrip (k : Beacon) : Beacon.ofBytes k.toBytes = some k := by
  have hu : ∀ n : UInt64, dec1 u64 (enc1 u64 n) = some n := fun n =>
    dec1_enc1 lawful_u64 trivial (by rw [enc1_u64_length]; decide)
  cases k with
  | bootstrap h =>
    simp [Beacon.toBytes, Beacon.ofBytes, dec1_enc1 lawful_hash (x := h) trivial (by rw [enc1_hash_length]; decide)]
  | updatesByRange s c =>
    simp [Beacon.toBytes, Beacon.ofBytes, dec2_enc2 lawful_u64 lawful_u64 (x := s) (y := c) trivial
      trivial (by rw [enc2_u64_length]; decide)]
  | finalityUpdate n => simp [Beacon.toBytes, Beacon.ofBytes, hu]
  | optimisticUpdate n => simp [Beacon.toBytes, Beacon.ofBytes, hu]
  | historicalSummaries n => simp [Beacon.toBytes, Beacon.ofBytes, hu]

/-- Two different keys never have the same bytes. -/
theorem C06_beacon_injective (k₁ k₂ : Beacon) (h : k₁.toBytes = k₂.toBytes) : k₁ = k₂ := by
  have e := C06_beacon_roundtrip k₁
  rw [h, C06_beacon_roundtrip k₂] at e
  exact (Option.some.inj e).symm

/-- A byte string that decodes is the bytes of the key it decoded to: wrong lengths, offsets or
trailing bytes are rejected. -/
theorem C06_beacon_strict (bs : Bytes) (k : Beacon) (h : Beacon.ofBytes bs = some k) :
    k.toBytes = bs := by
  match bs, h with
  | sel :: key, h =>
    simp only [Beacon.ofBytes] at h
    split at h
    · next e =>
      subst e
      cases hd : dec1 hash key with
      | none => rw [hd] at h; cases h
      | some x =>
        rw [hd] at h; cases h
        have := enc1_dec1 lawful_hash hd
        rw [Beacon.toBytes, this.2]
    split at h
    · next e =>
      subst e
      cases hd : dec2 u64 u64 key with
      | none => rw [hd] at h; cases h
      | some x =>
        rw [hd] at h; cases h
        have := enc2_dec2 lawful_u64 lawful_u64 hd
        rw [Beacon.toBytes, this.2.2]
    split at h
    · next e =>
      subst e
      cases hd : dec1 u64 key with
      | none => rw [hd] at h; cases h
      | some x =>
        rw [hd] at h; cases h
        have := enc1_dec1 lawful_u64 hd
        rw [Beacon.toBytes, this.2]
    split at h
    · next e =>
      subst e
      cases hd : dec1 u64 key with
      | none => rw [hd] at h; cases h
      | some x =>
        rw [hd] at h; cases h
        have := enc1_dec1 lawful_u64 hd
        rw [Beacon.toBytes, this.2]
    split at h
    · next e =>
      subst e
      cases hd : dec1 u64 key with
      | none => rw [hd] at h; cases h
      | some x =>
        rw [hd] at h; cases h
        have := enc1_dec1 lawful_u64 hd
        rw [Beacon.toBytes, this.2]
    · cases h

/-- An unknown selector, or no bytes at all, is rejected. -/
theorem C06_beacon_unknown_selector : Beacon.ofBytes [] = none ∧
    ∀ (sel : UInt8) (key : Bytes), sel ∉ [0x10, 0x11, 0x12, 0x13, 0x14] → Beacon.ofBytes (sel :: key) = none := by
  refine ⟨rfl, ?_⟩
  intro sel key h
  simp only [List.mem_cons, List.not_mem_nil, or_false, not_or] at h
  simp [Beacon.ofBytes, h]

/-! ## state keys -/

/-- Decoding the bytes of a key gives the key back. -/
theorem C06_state_roundtrip (k : State) (hk : ValidStateKey k) : State.ofBytes k.toBytes = some k := by
  cases k with
  | accountTrieNode p h =>
    have hl := encode_path_length p
    have hp : IsPath p := hk
    have := hp.1
    simp [State.toBytes, State.ofBytes, dec2_enc2 lawful_path lawful_hash (x := p) (y := h) hp
      trivial (by rw [enc2_path_hash_length]; omega)]
  | storageTrieNode a p h =>
    have hl := encode_path_length p
    have hp : IsPath p := hk
    have := hp.1
    simp [State.toBytes, State.ofBytes, dec3_enc3 lawful_hash lawful_path lawful_hash (x := a)
      (y := p) (z := h) trivial hp trivial (by rw [enc3_length]; omega)]
  | bytecode a c =>
    simp [State.toBytes, State.ofBytes, dec2_enc2 lawful_hash lawful_hash (x := a) (y := c) trivial
      trivial (by rw [enc2_hash_hash_length]; decide)]

/-- Two different keys never have the same bytes. -/
theorem C06_state_injective (k₁ k₂ : State) (h₁ : ValidStateKey k₁) (h₂ : ValidStateKey k₂) (h : k₁.toBytes = k₂.toBytes) : k₁ = k₂ := by
  have e := C06_state_roundtrip k₁ h₁
  rw [h, C06_state_roundtrip k₂ h₂] at e
  exact (Option.some.inj e).symm

/-- A byte string that decodes is the bytes of the key it decoded to: wrong lengths, offsets or
trailing bytes are rejected. -/
theorem C06_state_strict (bs : Bytes) (k : State) (h : State.ofBytes bs = some k) :
    ValidStateKey k ∧ k.toBytes = bs := by
  match bs, h with
  | sel :: key, h =>
    simp only [State.ofBytes] at h
    split at h
    · next e =>
      subst e
      cases hd : dec2 path hash key with
      | none => rw [hd] at h; cases h
      | some x =>
        rw [hd] at h; cases h
        have := enc2_dec2 lawful_path lawful_hash hd
        exact ⟨this.1, by rw [State.toBytes, this.2.2]⟩
    split at h
    · next e =>
      subst e
      cases hd : dec3 hash path hash key with
      | none => rw [hd] at h; cases h
      | some x =>
        rw [hd] at h; cases h
        have := enc3_dec3 lawful_hash lawful_path lawful_hash hd
        exact ⟨this.2.1, by rw [State.toBytes, this.2.2.2]⟩
    split at h
    · next e =>
      subst e
      cases hd : dec2 hash hash key with
      | none => rw [hd] at h; cases h
      | some x =>
        rw [hd] at h; cases h
        have := enc2_dec2 lawful_hash lawful_hash hd
        exact ⟨trivial, by rw [State.toBytes, this.2.2]⟩
    · cases h

/-- An unknown selector, or no bytes at all, is rejected. -/
theorem C06_state_unknown_selector : State.ofBytes [] = none ∧
    ∀ (sel : UInt8) (key : Bytes), sel ∉ [0x20, 0x21, 0x22] → State.ofBytes (sel :: key) = none := by
  refine ⟨rfl, ?_⟩
  intro sel key h
  simp only [List.mem_cons, List.not_mem_nil, or_false, not_or] at h
  simp [State.ofBytes, h]

/-! ## Lengths -/

/-- Length of the fixed-size keys and bounds for those with a path. -/
theorem C06_lengths :
    (∀ k : History, k.toBytes.length = 9) ∧
    (∀ k : Legacy, k.toBytes.length = match k with
      | .headerByNumber _ => 9 | .ephemeralFind _ _ => 34 | _ => 33) ∧
    (∀ k : Beacon, k.toBytes.length = match k with
      | .bootstrap _ => 33 | .updatesByRange _ _ => 17 | _ => 9) ∧
    (∀ k : State, ValidStateKey k → k.toBytes.length ≤ 134) := by
  refine ⟨?_, ?_, ?_, ?_⟩
  · intro k; cases k <;> simp [History.toBytes, enc1_u64_length]
  · intro k
    cases k <;> simp [Legacy.toBytes, enc1_u64_length, enc1_hash_length, enc2_hash_u8_length]
  · intro k
    cases k <;> simp [Beacon.toBytes, enc1_u64_length, enc1_hash_length, enc2_u64_length]
  · intro k hk
    cases k with
    | accountTrieNode p h =>
      have := encode_path_length p
      have := hk.1
      simp only [State.toBytes, List.length_cons, enc2_path_hash_length]; omega
    | storageTrieNode a p h =>
      have := encode_path_length p
      have := hk.1
      simp only [State.toBytes, List.length_cons, enc3_length]; omega
    | bytecode a c => simp [State.toBytes, enc2_hash_hash_length]

/-! Non-vacuity; vectors of the repository's tests (beacon.rs:252-262, state.rs tests). -/

example : (Beacon.updatesByRange 0x330 4).toBytes =
    [0x11, 0x30, 3, 0, 0, 0, 0, 0, 0, 4, 0, 0, 0, 0, 0, 0, 0] := by decide
example : ValidStateKey (.accountTrieNode [8, 6, 7, 9, 14, 8, 14, 13, 14] 7) := by
  refine ⟨by decide, by decide⟩
example : (State.accountTrieNode [8, 6, 7, 9, 14, 8, 14, 13, 14] 7).toBytes =
    [0x20, 36, 0, 0, 0] ++ (7 : Id).bytes ++ [0x18, 0x67, 0x9e, 0x8e, 0xde] := by decide +kernel
example : Legacy.ofBytes [3, 1, 2, 0, 0, 0, 0, 0] = none := by decide
example : Legacy.ofBytes [3, 1, 2, 0, 0, 0, 0, 0, 0] = some (.headerByNumber 0x201) := by decide

end Verif.Props
