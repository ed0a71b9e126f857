import Verif.Lemmas.Wire

/-! # C04: wire messages

Specification. A message is *buildable* if its ping payload fits the `ByteList1100` it is stored in
and its payload type is a value `From<u16>` produces. Node records are opaque values with a codec
that satisfies the contract of the `enr`/`alloy_rlp` crates: a record decodes back to itself.
Encodings are shorter than 4 GiB (an SSZ offset has 4 bytes; a talk request has at most 1171). -/

namespace Verif.Props
open Verif.Ssz Verif.Wire

/-- What is assumed of the record codec: encode followed by either decoder is the identity. -/
def EnrLawful {E} (c : EnrCodec E) : Prop :=
  (∀ e, c.decRlp (c.enc e) = some e) ∧ (∀ e, c.decStr (c.enc e) = some e)

def BuildablePing (p : PingBody) : Prop :=
  p.payload.length ≤ 1100 ∧ ∀ n, p.payloadType = .nonSupported n → n ∉ [0, 1, 2, 65535]

def Buildable {E} : Message E → Prop
  | .ping p => BuildablePing p
  | .pong p => BuildablePing p
  | _ => True

private theorem buildable_type {p : PingBody} (h : BuildablePing p) :
    ExtType.ofU16 p.payloadType.toU16 = p.payloadType := by
  have h2 := h.2
  cases ht : p.payloadType with
  | nonSupported n =>
    have := h2 n ht
    simp only [List.mem_cons, List.not_mem_nil, or_false, not_or] at this
    obtain ⟨a, b, c, d⟩ := this
    simp [ExtType.toU16, ExtType.ofU16, a, b, c, d]
  | _ => rfl

/-- Decoding the encoding of a message gives the message back. -/
theorem C04_roundtrip {E : Type} (c : EnrCodec E) (hc : EnrLawful c) (m : Message E)
    (hb : Buildable m) (hl : (encode c m).length < 2 ^ 32) : decode c (encode c m) = some m := by
  cases m with
  | ping p =>
    simp only [encode, List.length_cons] at hl
    simp only [encode, decode, splitUnion]
    simp [decodePing_encode (buildable_type hb) hb.1]
  | pong p =>
    simp only [encode, List.length_cons] at hl
    simp only [encode, decode, splitUnion]
    simp [decodePing_encode (buildable_type hb) hb.1]
  | findNodes ds =>
    simp only [encode, List.length_cons] at hl
    simp only [encode, decode, splitUnion]
    simp [decodeWrapped_encode (b := encodeU16s ds) (by omega), decodeU16s_encode]
  | nodes t es =>
    simp only [encode, List.length_cons] at hl
    simp only [encode, decode, splitUnion]
    simp [decodeNodes_encode hc.1 (t := t) (es := es) (by omega)]
  | findContent k =>
    simp only [encode, List.length_cons] at hl
    simp only [encode, decode, splitUnion]
    simp [decodeWrapped_encode (b := k) (by omega)]
  | content x =>
    simp only [encode, List.length_cons] at hl
    simp only [encode, decode, splitUnion]
    simp [decodeContent_encode hc.2 (x := x) (by omega)]
  | offer ks =>
    simp only [encode, List.length_cons] at hl
    have := encodeWrapped_length (encodeVarList ks)
    simp only [encode, decode, splitUnion]
    simp [decodeWrapped_encode (b := encodeVarList ks) (by omega),
      decode_encodeVarList (varList_count_le ks) (by omega)]
  | accept id ks =>
    simp only [encode, List.length_cons] at hl
    simp only [encode, decode, splitUnion]
    simp [decodeAccept_encode (id := id) (k := ks) (by omega)]

/-- No two different messages share an encoding. -/
theorem C04_injective {E : Type} (c : EnrCodec E) (hc : EnrLawful c) (m₁ m₂ : Message E)
    (h₁ : Buildable m₁) (h₂ : Buildable m₂) (hl : (encode c m₁).length < 2 ^ 32)
    (he : encode c m₁ = encode c m₂) : m₁ = m₂ := by
  have r₁ := C04_roundtrip c hc m₁ h₁ hl
  have r₂ := C04_roundtrip c hc m₂ h₂ (by rw [← he]; exact hl)
  rw [he, r₂] at r₁
  exact (Option.some.inj r₁).symm

/-- A message with an unknown selector, or no bytes at all, is rejected. -/
theorem C04_unknown_selector {E : Type} (c : EnrCodec E) :
    decode c [] = none ∧ ∀ (s : UInt8) (body : Bytes), 8 ≤ s.toNat → decode c (s :: body) = none := by
  refine ⟨rfl, ?_⟩
  intro s body hs
  simp only [decode, splitUnion]
  split
  · have h : ∀ k : UInt8, k.toNat < 8 → s ≠ k := by
      intro k hk he; subst he; omega
    simp only [Option.bind_eq_bind, Option.bind_some]
    rw [if_neg (h 0 (by decide)), if_neg (h 1 (by decide)), if_neg (h 2 (by decide)),
      if_neg (h 3 (by decide)), if_neg (h 4 (by decide)), if_neg (h 5 (by decide)),
      if_neg (h 6 (by decide)), if_neg (h 7 (by decide))]
  · rfl

/-- The selector decides the kind of the message, in the order of the specification. -/
theorem C04_selector {E : Type} (c : EnrCodec E) (m : Message E) :
    (encode c m).head? = some (match m with
      | .ping _ => 0 | .pong _ => 1 | .findNodes _ => 2 | .nodes _ _ => 3
      | .findContent _ => 4 | .content _ => 5 | .offer _ => 6 | .accept _ _ => 7) := by
  cases m <;> rfl

/-- Decoding is strict for every message other than ping and pong: an accepted byte string is the
encoding of the message it decoded to, so nothing is ignored. (For messages that carry records this
needs record decoders that are themselves strict.) -/
theorem C04_canonical_partial {E : Type} (c : EnrCodec E)
    (hr : ∀ b e, c.decRlp b = some e → c.enc e = b) (hs : ∀ b e, c.decStr b = some e → c.enc e = b)
    (bs : Bytes) (m : Message E) (hd : decode c bs = some m)
    (hm : (∀ p, m ≠ .ping p) ∧ (∀ p, m ≠ .pong p)) : encode c m = bs := by
  match bs, hd with
  | s :: body, hd =>
    simp only [decode, splitUnion] at hd
    split at hd
    case isFalse => cases hd
    simp only [Option.bind_eq_bind, Option.bind_some] at hd
    split at hd
    · cases hp : decodePing body with
      | none => simp [hp] at hd
      | some p => simp [hp] at hd; exact absurd hd.symm (hm.1 p)
    split at hd
    · cases hp : decodePing body with
      | none => simp [hp] at hd
      | some p => simp [hp] at hd; exact absurd hd.symm (hm.2 p)
    split at hd
    · next e =>
      subst e
      cases hw : decodeWrapped body with
      | none => simp [hw] at hd
      | some b =>
        simp only [hw, Option.bind_some] at hd
        cases hu : decodeU16s b with
        | none => simp [hu] at hd
        | some ds =>
          simp only [hu, Option.map_some, Option.some.injEq] at hd
          subst hd
          rw [encode, encode_decodeU16s hu, encode_decodeWrapped hw]
    split at hd
    · next e =>
      subst e
      cases hn : decodeNodes c body with
      | none => simp [hn] at hd
      | some x =>
        obtain ⟨t, es⟩ := x
        simp only [hn, Option.map_some, Option.some.injEq] at hd
        subst hd
        rw [encode, encode_decodeNodes hr hn]
    split at hd
    · next e =>
      subst e
      cases hw : decodeWrapped body with
      | none => simp [hw] at hd
      | some b =>
        simp only [hw, Option.map_some, Option.some.injEq] at hd
        subst hd
        rw [encode, encode_decodeWrapped hw]
    split at hd
    · next e =>
      subst e
      cases hx : decodeContent c body with
      | none => simp [hx] at hd
      | some x =>
        simp only [hx, Option.map_some, Option.some.injEq] at hd
        subst hd
        rw [encode, encode_decodeContent hs hx]
    split at hd
    · next e =>
      subst e
      cases hw : decodeWrapped body with
      | none => simp [hw] at hd
      | some b =>
        simp only [hw, Option.bind_some] at hd
        cases hv : decodeVarList b.length b with
        | none => simp [hv] at hd
        | some ks =>
          simp only [hv, Option.map_some, Option.some.injEq] at hd
          subst hd
          rw [encode, (encode_decodeVarList hv).1, encode_decodeWrapped hw]
    split at hd
    · next e =>
      subst e
      cases ha : decodeAccept body with
      | none => simp [ha] at hd
      | some x =>
        obtain ⟨id, k⟩ := x
        simp only [ha, Option.map_some, Option.some.injEq] at hd
        subst hd
        rw [encode, encode_decodeAccept ha]
    · cases hd

/-- Ping and pong: everything but the payload is strict, and the payload is the first 1100 bytes of
the payload on the wire. -/
theorem C04_ping_payload_truncated (bs : Bytes) (p : PingBody) (hd : decodePing bs = some p) :
    ∃ full, p.payload = full.take 1100 ∧ encodePing { p with payload := full } = bs :=
  decodePing_spec hd

/-- The strictness claim is false of ping messages: an over-long payload is cut, not rejected, so
two different byte strings are accepted as the same message. -/
theorem C04_canonical_violated {E : Type} (c : EnrCodec E) :
    ∃ bs₁ bs₂ m, bs₁ ≠ bs₂ ∧ bs₂.length ≤ 1171 ∧
      decode c bs₁ = some m ∧ decode c bs₂ = some m := by
  obtain ⟨pre, hpre⟩ : ∃ pre : Bytes, pre.length = 1100 := ⟨List.replicate 1100 7, List.length_replicate⟩
  have hlen : (pre ++ [7]).length = 1101 := by rw [List.length_append, hpre]; rfl
  refine ⟨0 :: encodePing ⟨1, .error, pre⟩, 0 :: encodePing ⟨1, .error, pre ++ [7]⟩,
    .ping ⟨1, .error, pre⟩, ?_, ?_, ?_, ?_⟩
  · intro h
    have := congrArg List.length h
    rw [List.length_cons, List.length_cons, encodePing_length, encodePing_length] at this
    have : 14 + pre.length + 1 = 14 + (pre ++ [7]).length + 1 := this
    omega
  · rw [List.length_cons, encodePing_length]
    show 14 + (pre ++ [7]).length + 1 ≤ 1171
    omega
  · have := decodePing_encode_any 1 .error pre (by omega)
    rw [List.take_of_length_le (by omega)] at this
    simp only [decode, splitUnion]
    simp [this, ExtType.toU16, ExtType.ofU16]
  · have := decodePing_encode_any 1 .error (pre ++ [7]) (by omega)
    rw [List.take_left' hpre] at this
    simp only [decode, splitUnion]
    simp [this, ExtType.toU16, ExtType.ofU16]

/-- Requests travel as requests and responses as responses: a message is exactly one of the two. -/
theorem C04_request_xor_response {E : Type} (m : Message E) :
    (Request.ofMessage m).isSome ≠ (Response.ofMessage m).isSome := by
  cases m <;> simp [Request.ofMessage, Response.ofMessage]

theorem C04_response_roundtrip {E : Type} (r : Response E) :
    Response.ofMessage r.toMessage = some r ∧ Request.ofMessage (r.toMessage) = none := by
  cases r <;> exact ⟨rfl, rfl⟩

/-- What the receiver of a request gets: the request itself, and for an offer that carries its
contents an ordinary offer of the same keys in the same order; never the contents. -/
theorem C04_request_received {E : Type} (r : Request) :
    Request.ofMessage (r.toMessage (E := E)) = some (match r with
      | .populatedOffer items => .offer (items.map (·.1))
      | .populatedOfferWithResult items => .offer (items.map (·.1))
      | r => r) ∧ Response.ofMessage (r.toMessage (E := E)) = none := by
  cases r <;> exact ⟨rfl, rfl⟩

/-! Non-vacuity and the vectors of the repository's tests (portal_wire.rs:620-780). Records are
represented by their own bytes here. -/

private def rawCodec : EnrCodec Bytes := ⟨id, some, some⟩

example : EnrLawful rawCodec := ⟨fun _ => rfl, fun _ => rfl⟩
example : Buildable (E := Bytes) (.ping ⟨1, .nonSupported 7, [1, 2]⟩) :=
  ⟨by decide, by intro n h; cases h; decide⟩
example : encode rawCodec (.findNodes [256, 255]) = [2, 4, 0, 0, 0, 0, 1, 0xff, 0] := by decide
example : encode rawCodec (.nodes 1 []) = [3, 1, 5, 0, 0, 0] := by decide
example : encode rawCodec (.nodes 1 [[0xaa], [0xbb, 0xcc]]) =
    [3, 1, 5, 0, 0, 0, 8, 0, 0, 0, 9, 0, 0, 0, 0xaa, 0xbb, 0xcc] := by decide
example : encode rawCodec (.findContent [0x70, 0x6f]) = [4, 4, 0, 0, 0, 0x70, 0x6f] := by decide
example : encode rawCodec (.content (.connectionId 0x0201)) = [5, 0, 1, 2] := by decide
example : encode rawCodec (.offer [[1, 2, 3]]) = [6, 4, 0, 0, 0, 4, 0, 0, 0, 1, 2, 3] := by decide
example : encode rawCodec (.accept 0x0201 [1, 1]) = [7, 1, 2, 6, 0, 0, 0, 1, 1] := by decide
example : decode rawCodec [7, 1, 2, 6, 0, 0, 0, 1, 1] = some (.accept 0x0201 [1, 1]) := by decide
example : decode rawCodec [2, 4, 0, 0, 0, 0, 1, 0xff] = none := by decide
example : encode rawCodec (.ping ⟨1, .basicRadius, [9]⟩) =
    [0, 1, 0, 0, 0, 0, 0, 0, 0, 1, 0, 14, 0, 0, 0, 9] := by decide

/-- The selector inside a CONTENT message, in the order of the specification. -/
theorem C04_content_selector {E : Type} (c : EnrCodec E) (x : Content E) :
    (encode c (.content x))[1]? = some (match x with
      | .connectionId _ => (0 : UInt8) | .content _ => 1 | .enrs _ => 2) := by
  cases x <;> rfl

end Verif.Props
