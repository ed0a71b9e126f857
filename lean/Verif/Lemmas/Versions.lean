import Verif.Model.Versions

namespace Verif.Versions

theorem toByte_ofByte (n : UInt8) : (Version.ofByte n).toByte = n := by
  unfold Version.ofByte; split
  · next h => rw [h]; rfl
  · split
    · next h => rw [h]; rfl
    · split
      · next h => rw [h]; rfl
      · rfl

/-- A version that is one of the named ones. -/
def Specified : Version → Prop
  | .unspecified _ => False
  | _ => True

theorem ofByte_toByte {v : Version} (h : Specified v) : Version.ofByte v.toByte = v := by
  cases v <;> first | rfl | exact absurd h id

theorem sortedFrom_spec (prev : Option Version) (vs : List Version)
    (h : sortedSpecifiedFrom prev vs = true) :
    (∀ v ∈ vs, Specified v) ∧ vs.Pairwise (fun a b => a.toByte.toNat < b.toByte.toNat) ∧
    (∀ p, prev = some p → ∀ v ∈ vs, p.toByte.toNat < v.toByte.toNat) := by
  induction vs generalizing prev with
  | nil => simp
  | cons v vs ih =>
    have key : Specified v ∧ (∀ p, prev = some p → p.toByte.toNat < v.toByte.toNat) ∧
        sortedSpecifiedFrom (some v) vs = true := by
      cases v with
      | unspecified n => simp [sortedSpecifiedFrom] at h
      | _ =>
        cases prev with
        | none => simp [sortedSpecifiedFrom] at h; simp [Specified, h]
        | some p =>
          simp [sortedSpecifiedFrom, Version.lt] at h
          simp [Specified, h]
    obtain ⟨hs, hp, hr⟩ := key
    obtain ⟨h1, h2, h3⟩ := ih (some v) hr
    refine ⟨?_, ?_, ?_⟩
    · intro w hw
      rcases List.mem_cons.1 hw with rfl | hw
      · exact hs
      · exact h1 w hw
    · exact List.pairwise_cons.2 ⟨fun w hw => h3 v rfl w hw, h2⟩
    · intro p hpp w hw
      rcases List.mem_cons.1 hw with rfl | hw
      · exact hp p hpp
      · exact Nat.lt_trans (hp p hpp) (h3 v rfl w hw)

theorem find_reverse_greatest {vs : List Version} {p : Version → Bool} {v : Version}
    (hs : vs.Pairwise (fun a b => a.toByte.toNat < b.toByte.toNat))
    (hf : vs.reverse.find? p = some v) :
    ∀ w ∈ vs, p w = true → w.toByte.toNat ≤ v.toByte.toNat := by
  rw [List.find?_eq_some_iff_append] at hf
  obtain ⟨hpv, as, bs, heq, has⟩ := hf
  have hvs : vs = bs.reverse ++ v :: as.reverse := by
    have := congrArg List.reverse heq
    simpa using this
  intro w hw hpw
  rw [hvs] at hw hs
  rw [List.mem_append, List.mem_cons] at hw
  rcases hw with hw | rfl | hw
  · have := (List.pairwise_append.1 hs).2.2 w hw v (by simp)
    omega
  · omega
  · have := has w (by simpa using hw)
    rw [hpw] at this
    simp at this

end Verif.Versions
