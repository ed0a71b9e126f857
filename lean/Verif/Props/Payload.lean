import Verif.Model.Payload
import Verif.Lemmas.Payload

/-!
# C02: content payload framing

Specification: a payload is a concatenation of frames, a frame is a variable-length number
(`IsLeb`) followed by that many content bytes.
-/

namespace Verif.Props
open Verif.Payload

/-- Unsigned LEB128, straight from its definition: groups of seven bits, least significant first,
the top bit of a byte tells whether another byte follows. Non-minimal forms are allowed. -/
inductive IsLeb : Bytes → Nat → Prop where
  | last (b : UInt8) : b.toNat < 128 → IsLeb [b] b.toNat
  | more (b : UInt8) (bs : Bytes) (v : Nat) :
      128 ≤ b.toNat → IsLeb bs v → IsLeb (b :: bs) (b.toNat - 128 + 128 * v)

theorem IsLeb.of_shape {p : Bytes} (h : lebShape p) : IsLeb p (lebValue p) := by
  induction p with
  | nil => exact absurd h (by simp [lebShape])
  | cons b p ih =>
    cases p with
    | nil =>
      simp only [lebShape] at h
      have : lebValue [b] = b.toNat := by simp only [lebValue]; omega
      rw [this]; exact .last b h
    | cons c p =>
      have hb : b.toNat < 256 := b.toNat_lt
      have : lebValue (b :: c :: p) = b.toNat - 128 + 128 * lebValue (c :: p) := by
        have h1 := h.1
        rw [lebValue]; omega
      rw [this]
      exact .more b _ _ h.1 (ih h.2)

/-- Encoding succeeds exactly when each item is shorter than `2^32` bytes. -/
theorem C02_encode_ok_iff (items : List Bytes) :
    (∃ payload, encode items = .ok payload) ↔ ∀ item ∈ items, item.length < 2 ^ 32 :=
  encode_ok_iff items

/-- Decoding an encoded payload returns exactly the items, in order. -/
theorem C02_roundtrip (items : List Bytes) (payload : Bytes) (h : encode items = .ok payload) :
    decode payload = .ok items := by
  have := decode_encode_append items payload [] h
  simpa [decode_nil] using this

/-- Encoding loses nothing: equal payloads come from equal item lists. -/
theorem C02_encode_injective (xs ys : List Bytes) (p : Bytes)
    (hx : encode xs = .ok p) (hy : encode ys = .ok p) : xs = ys := by
  have h1 := C02_roundtrip xs p hx
  have h2 := C02_roundtrip ys p hy
  rw [h1] at h2
  exact Except.ok.inj h2

/-- Whatever bytes arrive: if decoding succeeds, the input is exactly the returned items, in order,
each preceded by a variable-length number equal to its length. -/
theorem C02_decode_structure (bs : Bytes) (items : List Bytes) (h : decode bs = .ok items) :
    ∃ heads : List Bytes, heads.length = items.length ∧
      bs = (List.zipWith (· ++ ·) heads items).flatten ∧
      ∀ q ∈ List.zip heads items, IsLeb q.1 q.2.length ∧ q.2.length < 2 ^ 32 := by
  induction items generalizing bs with
  | nil => exact ⟨[], rfl, by simp [decode_ok_nil h], by simp⟩
  | cons item items ih =>
    obtain ⟨rest, h1, h2⟩ := decode_ok_cons h
    obtain ⟨p, rfl, hp, hl, hlt⟩ := decodeNext_some h1
    obtain ⟨heads, e1, e2, e3⟩ := ih rest h2
    refine ⟨p :: heads, by simp [e1], by simp [e2], ?_⟩
    intro q hq
    simp only [List.zip_cons_cons, List.mem_cons] at hq
    rcases hq with rfl | hq
    · exact ⟨by rw [hl]; exact IsLeb.of_shape hp, hlt⟩
    · exact e3 q hq

/-- A payload cut short never yields altered content: decoding the cut payload fails or returns
strictly fewer items, all of them unchanged and in place. -/
theorem C02_truncation (items : List Bytes) (payload pre : Bytes)
    (h : decode payload = .ok items) (hcut : ∃ s, s ≠ [] ∧ payload = pre ++ s) :
    (∃ e, decode pre = .error e) ∨ ∃ k, k < items.length ∧ decode pre = .ok (items.take k) := by
  obtain ⟨s, hs, hpre⟩ := hcut
  rcases decode_prefix h hpre with he | ⟨k, hk, hk'⟩
  · exact .inl he
  · exact .inr ⟨k, hk' hs, hk⟩

/-- Payloads can be concatenated: the items are concatenated, and an error in the second part is
an error of the whole. -/
theorem C02_concat (as bs : Bytes) (xs : List Bytes) (hx : decode as = .ok xs) :
    (∀ ys, decode bs = .ok ys → decode (as ++ bs) = .ok (xs ++ ys)) ∧
    (∀ e, decode bs = .error e → decode (as ++ bs) = .error e) := by
  have := decode_append (bs := bs) hx
  constructor
  · intro ys hy; rw [this, hy]
  · intro e he; rw [this, he]

/-- The single-item decoder accepts exactly the payloads that hold one item. -/
theorem C02_single_iff (bs item : Bytes) :
    decodeSingle bs = .ok item ↔ decode bs = .ok [item] := by
  unfold decodeSingle
  constructor
  · intro h
    split at h
    · simp at h
    · simp at h
    · rename_i it rest heq
      split at h
      · rename_i hr
        subst hr
        simp only [Except.ok.injEq] at h
        subst h
        rw [decode_step, heq]
        simp [decode_nil]
      · simp at h
  · intro h
    obtain ⟨rest, h1, h2⟩ := decode_ok_cons h
    rw [h1]
    simp [decode_ok_nil h2]

/- Concrete cases: items of sizes 0, 1 and 130 (two-byte length). -/
example : encode [[], [7]] = .ok [0, 1, 7] := by simp [encode, lebWrite]
example : decode [0, 1, 7] = .ok [[], [7]] :=
  C02_roundtrip _ _ (by simp [encode, lebWrite])
example : ∃ p, encode [List.replicate 130 5] = .ok p ∧ p.take 2 = [130, 1] := by
  refine ⟨_, by simp [encode, lebWrite]; rfl, by simp⟩
/- A damaged frame: length 2 but one byte left. -/
example : decode [2, 7] = .error .eof := by rfl
/- `C02_truncation` applies to it. -/
example : ∃ s : Bytes, s ≠ [] ∧ ([2, 7, 8] : Bytes) = [2, 7] ++ s := ⟨[8], by simp, rfl⟩
/- A varint above 32 bits is refused. -/
example : decode [0xff, 0xff, 0xff, 0xff, 0x1f] = .error .tooLarge := by rfl

end Verif.Props
