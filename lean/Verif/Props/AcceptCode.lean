import Verif.Model.AcceptCode
import Verif.Lemmas.AcceptCode

/-! # C03: accept lists round-trip in both protocol versions -/

namespace Verif.Props

/-- Version 1: every list of up to 64 codes is restored exactly. -/
theorem C03_v1_roundtrip (codes : List AcceptCode) (h : codes.length ≤ 64) :
    acceptDecode true (acceptEncode true codes) = some codes := by
  have hl : (codes.map AcceptCode.toByte).length ≤ maxAcceptCodes := by simpa [maxAcceptCodes]
  simp only [acceptDecode, acceptEncode, if_true, if_pos hl, List.map_map, Option.some.injEq]
  have : AcceptCode.ofByte ∘ AcceptCode.toByte = id := by
    funext c; exact AcceptCode.ofByte_toByte c
  simp [this]

/-- Version 0: the length and the accepted positions are restored exactly; every other verdict
arrives as `declined`. -/
theorem C03_v0_roundtrip (codes : List AcceptCode) (h : codes.length ≤ 64) :
    acceptDecode false (acceptEncode false codes) =
      some (codes.map (fun c => if c = .accepted then .accepted else .declined)) := by
  simp only [acceptDecode, acceptEncode, Bool.false_eq_true, if_false]
  rw [bitlist_roundtrip _ _ (by simpa [maxAcceptCodes] using h)]
  simp

/-- The same as a statement about positions. -/
theorem C03_v0_positions (codes : List AcceptCode) (h : codes.length ≤ 64) :
    ∃ out, acceptDecode false (acceptEncode false codes) = some out ∧
      out.length = codes.length ∧
      ∀ i : Nat, out[i]? = some .accepted ↔ codes[i]? = some .accepted := by
  refine ⟨_, C03_v0_roundtrip codes h, by simp, fun i => ?_⟩
  rw [List.getElem?_map]
  cases hc : codes[i]? with
  | none => simp
  | some c => cases c <;> simp

/-- Any byte outside the six known codes decodes to a refusal; `accepted` comes from byte 0 only. -/
theorem C03_unknown_bytes (b : UInt8) :
    (5 < b.toNat → AcceptCode.ofByte b = .unspecified) ∧
    (AcceptCode.ofByte b = .accepted ↔ b.toNat = 0) := by
  constructor
  · intro h
    have hk : ∀ k : UInt8, k.toNat ≤ 5 → b ≠ k := by rintro k hk rfl; omega
    simp [AcceptCode.ofByte, hk 0 (by decide), hk 1 (by decide), hk 2 (by decide),
      hk 3 (by decide), hk 4 (by decide), hk 5 (by decide)]
  · rw [AcceptCode.ofByte]
    constructor
    · intro h
      split at h
      · rename_i h0; simp [h0]
      · repeat (split at h; · simp at h)
        simp at h
    · intro h
      have : b = 0 := UInt8.toNat_inj.mp h
      simp [this]

/-- Every version-1 byte string of up to 64 bytes decodes, one verdict per byte; longer ones fail. -/
theorem C03_v1_total (bs : Bytes) :
    (bs.length ≤ 64 → ∃ out, acceptDecode true bs = some out ∧ out.length = bs.length) ∧
    (64 < bs.length → acceptDecode true bs = none) := by
  simp only [acceptDecode, if_true, maxAcceptCodes]
  constructor
  · intro h; exact ⟨_, if_pos h, by simp⟩
  · intro h; rw [if_neg (by omega)]

/-- Version 0 decoding is strict: it accepts only the encoding of what it returns, so at most 64
verdicts and no two byte strings for one list. -/
theorem C03_v0_canonical (bs : Bytes) (out : List AcceptCode)
    (h : acceptDecode false bs = some out) : bs = acceptEncode false out ∧ out.length ≤ 64 := by
  simp only [acceptDecode, Bool.false_eq_true, if_false] at h
  split at h
  · simp at h
  · rename_i bits hb
    simp only [Option.some.injEq] at h
    subst h
    obtain ⟨h1, h2⟩ := bitlist_canonical _ _ _ hb
    refine ⟨?_, by simpa [maxAcceptCodes] using h2⟩
    simp only [acceptEncode, Bool.false_eq_true, if_false, List.map_map]
    rw [h1]
    congr 1
    have : ((fun c => c == AcceptCode.accepted) ∘
        fun b => if b = true then AcceptCode.accepted else AcceptCode.declined) = id := by
      funext b; cases b <;> rfl
    simp [this]

/- Test vectors of the repository (accept_code / portal_wire tests): eight keys, the first accepted
in version 0 give 0x0101. -/
example : acceptEncode false [.accepted, .declined, .declined, .declined, .declined, .declined,
    .declined, .declined] = [1, 1] := by decide
example : acceptEncode true [.accepted, .declined, .alreadyStored, .notWithinRadius, .rateLimited,
    .inboundTransferInProgress] = [0, 1, 2, 3, 4, 5] := by decide
/- The longest list meets the hypothesis. -/
example : (List.replicate 64 AcceptCode.rateLimited).length ≤ 64 := by simp

/-- The byte of every code, as the wire protocol fixes it. -/
theorem C03_code_bytes (c : AcceptCode) : c.toByte = match c with
    | .accepted => 0 | .declined => 1 | .alreadyStored => 2 | .notWithinRadius => 3
    | .rateLimited => 4 | .inboundTransferInProgress => 5 | .unspecified => 255 := by
  cases c <;> rfl

/-- An answer counts as "all declined" exactly when no key is accepted, whatever the reasons. -/
theorem C03_all_declined (codes : List AcceptCode) :
    allDeclined codes = true ↔ ∀ c ∈ codes, c ≠ .accepted := by
  unfold allDeclined
  rw [Bool.not_eq_true', ← Bool.not_eq_true, List.contains_iff_mem]
  exact ⟨fun h c hc e => h (e ▸ hc), fun h hm => h _ hm rfl⟩

example : allDeclined [.rateLimited, .declined] = true ∧ allDeclined [.declined, .accepted] = false := by
  decide

end Verif.Props
