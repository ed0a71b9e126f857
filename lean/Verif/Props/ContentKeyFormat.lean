import Verif.Lemmas.ContentKey

/-! # C06: exact bytes of content keys -/

namespace Verif.Props
open Verif.ContentKey Verif.Ssz

/-- The bytes of every history key: selector and block number. -/
theorem C06_history_format (k : History) : k.toBytes = match k with
    | .blockBody n => 0x00 :: toLe 8 n.toNat
    | .blockReceipts n => 0x01 :: toLe 8 n.toNat := by
  cases k <;> simp [History.toBytes, enc1, ContentKey.u64, encodeContainer, fixedPart, varPart]

/-- The bytes of every legacy history key. -/
theorem C06_legacy_format (k : Legacy) : k.toBytes = match k with
    | .headerByHash h => 0x00 :: h.bytes
    | .blockBody h => 0x01 :: h.bytes
    | .blockReceipts h => 0x02 :: h.bytes
    | .headerByNumber n => 0x03 :: toLe 8 n.toNat
    | .ephemeralFind h a => 0x04 :: (h.bytes ++ [a])
    | .ephemeralOffer h => 0x05 :: h.bytes := by
  cases k <;> simp [Legacy.toBytes, enc1, enc2, ContentKey.u64, ContentKey.u8, ContentKey.hash, encodeContainer, fixedPart, varPart]

/-- The bytes of every beacon key. -/
theorem C06_beacon_format (k : Beacon) : k.toBytes = match k with
    | .bootstrap h => 0x10 :: h.bytes
    | .updatesByRange s c => 0x11 :: (toLe 8 s.toNat ++ toLe 8 c.toNat)
    | .finalityUpdate s => 0x12 :: toLe 8 s.toNat
    | .optimisticUpdate s => 0x13 :: toLe 8 s.toNat
    | .historicalSummaries e => 0x14 :: toLe 8 e.toNat := by
  cases k <;> simp [Beacon.toBytes, enc1, enc2, ContentKey.u64, ContentKey.hash, encodeContainer, fixedPart, varPart]

/-- The bytes of every state key; the path is preceded by its offset. -/
theorem C06_state_format (k : State) : k.toBytes = match k with
    | .accountTrieNode p h => 0x20 :: (toLe 4 36 ++ h.bytes ++ Nibbles.encode p)
    | .storageTrieNode a p h => 0x21 :: (a.bytes ++ toLe 4 68 ++ h.bytes ++ Nibbles.encode p)
    | .bytecode a c => 0x22 :: (a.bytes ++ c.bytes) := by
  cases k <;>
    simp [State.toBytes, enc2, enc3, ContentKey.hash, ContentKey.path, encodeContainer, fixedPart, varPart, headLen,
      Field.headLen]

/-- Exactly the ephemeral header keys are exempt from the radius. -/
theorem C06_affected_by_radius (k : Legacy) :
    k.affectedByRadius = false ↔ (∃ h a, k = .ephemeralFind h a) ∨ ∃ h, k = .ephemeralOffer h := by
  cases k <;> simp [Legacy.affectedByRadius]

example : (Beacon.updatesByRange 1 2).toBytes =
    [0x11, 1, 0, 0, 0, 0, 0, 0, 0, 2, 0, 0, 0, 0, 0, 0, 0] := by decide

end Verif.Props
