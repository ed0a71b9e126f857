import Verif.Lemmas.Provider

/-! # Lemmas: the endpoints of consensus nodes -/

namespace Verif.Provider
open Verif.Props

theorem decimal_inj {a b : Nat} (h : HeadGen.decimal a = HeadGen.decimal b) : a = b := by
  have ha := (decimal_spec a).2.1
  have hb := (decimal_spec b).2.1
  rw [h] at ha
  omega

theorem decimal_digit {n : Nat} {c : Char} (h : c ∈ HeadGen.decimal n) : '0' ≤ c ∧ c ≤ '9' := (decimal_spec n).1 c h

theorem hexEncode_inj {a b : Bytes} (h : Hex.hexEncode a = Hex.hexEncode b) : a = b :=
  DataDir.hexBody_inj (List.cons.inj (List.cons.inj h).2).2

theorem decimal_ne {n : Nat} {l : List Char} (c : Char) (hc : c ∈ l) (hd : ¬ ('0' ≤ c ∧ c ≤ '9')) :
    HeadGen.decimal n ≠ l := fun h => hd (decimal_digit (h ▸ hc))

theorem text_inj : ∀ {a b : Ident}, a.text = b.text → a = b := by
  have hx : ¬ ('0' ≤ 'x' ∧ 'x' ≤ '9') := by decide
  have he : ¬ ('0' ≤ 'e' ∧ 'e' ≤ '9') := by decide
  have hroot : ∀ r : Bytes, 'x' ∈ Hex.hexEncode r := fun r => List.mem_cons_of_mem _ (List.mem_cons_self ..)
  intro a b h
  cases a <;> cases b <;> simp only [Ident.text] at h
  case slot.slot n m => rw [decimal_inj h]
  case root.root r s => rw [hexEncode_inj h]
  case slot.root n r => exact absurd h (decimal_ne 'x' (hroot r) hx)
  case root.slot r n => exact absurd h.symm (decimal_ne 'x' (hroot r) hx)
  case slot.head n => exact absurd h (decimal_ne 'e' (by decide) he)
  case slot.genesis n => exact absurd h (decimal_ne 'e' (by decide) he)
  case slot.finalized n => exact absurd h (decimal_ne 'e' (by decide) he)
  case head.slot n => exact absurd h.symm (decimal_ne 'e' (by decide) he)
  case genesis.slot n => exact absurd h.symm (decimal_ne 'e' (by decide) he)
  case finalized.slot n => exact absurd h.symm (decimal_ne 'e' (by decide) he)
  all_goals first
    | rfl
    | exact absurd h (by decide)
    | exact absurd h (by simp [Hex.hexEncode])

theorem split_at {a b c d : List Char} {x : Char} (ha : x ∉ a) (hb : x ∉ b) (h : a ++ x :: c = b ++ x :: d) :
    a = b ∧ c = d := by
  induction a generalizing b with
  | nil =>
    cases b with
    | nil => simpa using h
    | cons y b =>
      simp only [List.nil_append, List.cons_append, List.cons.injEq] at h
      exact absurd (h.1 ▸ List.mem_cons_self ..) hb
  | cons y a ih =>
    cases b with
    | nil =>
      simp only [List.nil_append, List.cons_append, List.cons.injEq] at h
      exact absurd (h.1 ▸ List.mem_cons_self ..) ha
    | cons z b =>
      simp only [List.cons_append, List.cons.injEq] at h
      obtain ⟨h1, h2⟩ := ih (fun hm => ha (List.mem_cons_of_mem _ hm)) (fun hm => hb (List.mem_cons_of_mem _ hm)) h.2
      exact ⟨by rw [h.1, h1], h2⟩

theorem ne_of_take {a b : List Char} (n : Nat) (h : a.take n ≠ b.take n) : a ≠ b := fun e => h (by rw [e])

theorem endpoint_inj : ∀ {a b : Question}, a.endpoint = b.endpoint → a = b := by
  intro a b h
  cases a <;> cases b
  case bootstrap.bootstrap r s => rw [hexEncode_inj (List.append_cancel_left h)]
  case blockRoot.blockRoot r s => rw [text_inj (List.append_cancel_left (List.append_cancel_right h))]
  case state.state r s => rw [text_inj (List.append_cancel_left h)]
  case block.block r s => rw [text_inj (List.append_cancel_left h)]
  case updates.updates a b c d =>
    simp only [Question.endpoint, List.append_assoc] at h
    have h := List.append_cancel_left h
    have e : (chars% "&count=") = '&' :: (chars% "count=") := rfl
    rw [e, List.cons_append, List.cons_append] at h
    have hn : ∀ n, '&' ∉ HeadGen.decimal n := fun n hm => absurd (decimal_digit hm) (by decide)
    obtain ⟨h1, h2⟩ := split_at (hn a) (hn c) h
    have h2 : (chars% "count=") ++ HeadGen.decimal b = (chars% "count=") ++ HeadGen.decimal d := h2
    rw [decimal_inj h1, decimal_inj (List.append_cancel_left h2)]
  all_goals first
    | rfl
    | exact absurd h (by simp [Question.endpoint])

end Verif.Provider
