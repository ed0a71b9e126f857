import Verif.Props.ContentKey
import Verif.Props.ContentId

/-! # C07: content ids of content keys -/

namespace Verif.Props
open Verif.ContentKey

/-- Different history keys have different content ids, without any assumption on a hash. -/
theorem C07_history_ids (k₁ k₂ : History) (h : k₁.contentId = k₂.contentId) : k₁ = k₂ := by
  cases k₁ <;> cases k₂ <;> simp only [History.contentId] at h <;>
    obtain ⟨h1, h2⟩ := C07_injective _ _ _ _ h <;> first
    | exact absurd h2 (by decide)
    | (rw [UInt64.toBitVec_inj.mp h1])

/-- For the keys that are hashed, equal content ids of different keys are a collision of the hash
function on the two encoded keys. -/
theorem C07_hashed_ids (sha256 : Bytes → Id) (k₁ k₂ : Legacy)
    (h : contentId sha256 k₁.toBytes = contentId sha256 k₂.toBytes) :
    k₁ = k₂ ∨ (k₁.toBytes ≠ k₂.toBytes ∧ sha256 k₁.toBytes = sha256 k₂.toBytes) := by
  by_cases e : k₁ = k₂
  · exact Or.inl e
  · exact Or.inr ⟨fun hb => e (C06_legacy_injective _ _ hb), h⟩

/-- The two history keys of one block have different ids. -/
example : (History.blockBody 7).contentId ≠ (History.blockReceipts 7).contentId := fun h => by
  cases C07_history_ids _ _ h

end Verif.Props
