import Verif.Model.Wire
import Verif.Lemmas.Ssz

namespace Verif.Wire
open Verif.Ssz

theorem mapM_map_some {α β : Type} {f : β → Option α} {g : α → β} :
    ∀ l : List α, (∀ x ∈ l, f (g x) = some x) → (l.map g).mapM f = some l
  | [], _ => rfl
  | x :: l, h => by
    rw [List.map_cons, List.mapM_cons, h x (by simp),
      mapM_map_some l (fun y hy => h y (by simp [hy]))]
    rfl

theorem mapM_some_map {α β : Type} {f : β → Option α} {g : α → β} :
    ∀ (l : List β) (r : List α), (∀ b x, b ∈ l → f b = some x → g x = b) →
      l.mapM f = some r → r.map g = l
  | [], r, _, hr => by
    simp only [List.mapM_nil] at hr; cases hr; rfl
  | b :: l, r, h, hr => by
    rw [List.mapM_cons] at hr
    cases hb : f b with
    | none => rw [hb] at hr; cases hr
    | some x =>
      rw [hb] at hr
      cases hl : l.mapM f with
      | none => simp [hl] at hr
      | some r' =>
        simp [hl] at hr
        subst hr
        rw [List.map_cons, h b x (by simp) hb,
          mapM_some_map l r' (fun b x hb => h b x (by simp [hb])) hl]

theorem varPart_length_le : ∀ {fs : List Field} {vs : List Bytes}, Fits fs vs →
    (encodeContainer fs vs).length = headLen fs + (varPart fs vs).length := by
  intro fs vs h
  rw [encodeContainer, List.length_append, fixedPart_length h]

theorem encodeWrapped_length (b : Bytes) : (encodeWrapped b).length = 4 + b.length := by
  rw [encodeWrapped, varPart_length_le (by trivial)]
  simp [headLen, Field.headLen, varPart]

theorem decodeWrapped_encode {b : Bytes} (h : (encodeWrapped b).length < 2 ^ 32) :
    decodeWrapped (encodeWrapped b) = some b := by
  unfold decodeWrapped encodeWrapped at *
  rw [decode_encodeContainer (by trivial) h]
  rfl

theorem encode_decodeWrapped {bs b : Bytes} (h : decodeWrapped bs = some b) :
    encodeWrapped b = bs := by
  unfold decodeWrapped at h
  cases hd : decodeContainer [.var] bs with
  | none => rw [hd] at h; cases h
  | some vs =>
    rw [hd] at h
    have := (encode_decodeContainer hd).2
    match vs, h with
    | [x], h => cases h; exact this

theorem decodeU16_toLe (x : UInt16) : decodeU16 (toLe 2 x.toNat) = some x := by
  unfold decodeU16 decodeUint
  rw [if_pos (by simp), fromLe_toLe_of_lt (by have := x.toNat_lt; omega)]
  simp

theorem toLe_decodeU16 {b : Bytes} {x : UInt16} (h : decodeU16 b = some x) :
    toLe 2 x.toNat = b := by
  unfold decodeU16 decodeUint at h
  split at h
  · next hl =>
    simp only [Option.map_some, Option.some.injEq] at h
    subst h
    have := fromLe_lt b
    rw [hl] at this
    rw [UInt16.toNat_ofNat', Nat.mod_eq_of_lt (by simpa using this), ← hl, toLe_fromLe]
  · cases h

theorem ExtType.ofU16_toU16 (n : UInt16) : (ExtType.ofU16 n).toU16 = n := by
  unfold ExtType.ofU16
  split
  · next h => subst h; rfl
  · split
    · next h => subst h; rfl
    · split
      · next h => subst h; rfl
      · split
        · next h => subst h; rfl
        · rfl

theorem decodeU16s_encode (ds : List UInt16) : decodeU16s (encodeU16s ds) = some ds := by
  have hv : ∀ v ∈ ds.map (fun d => toLe 2 d.toNat), v.length = 2 := by
    intro v hv
    obtain ⟨d, -, rfl⟩ := List.mem_map.1 hv
    simp
  unfold decodeU16s encodeU16s
  rw [decode_encodeFixedList (by omega) hv (by
    rw [encodeFixedList, flatten_length 2 _ hv]; omega)]
  exact mapM_map_some ds (fun x _ => decodeU16_toLe x)

theorem encode_decodeU16s {bs : Bytes} {ds : List UInt16} (h : decodeU16s bs = some ds) :
    encodeU16s ds = bs := by
  unfold decodeU16s at h
  cases hd : decodeFixedList 2 bs.length bs with
  | none => rw [hd] at h; cases h
  | some l =>
    rw [hd] at h
    have h' : l.mapM decodeU16 = some ds := h
    unfold encodeU16s
    rw [mapM_some_map l ds (fun b x _ hb => toLe_decodeU16 hb) h']
    exact (encode_decodeFixedList hd).1

theorem encodePing_fits (p : PingBody) : Fits pingFields
    [toLe 8 p.enrSeq.toNat, toLe 2 p.payloadType.toU16.toNat, p.payload] :=
  ⟨toLe_length _ _, toLe_length _ _, trivial⟩

theorem encodePing_length (p : PingBody) : (encodePing p).length = 14 + p.payload.length := by
  rw [encodePing, varPart_length_le (encodePing_fits p)]
  simp [pingFields, headLen, Field.headLen, varPart]

theorem decodePing_encode_any (seq : UInt64) (t : ExtType) (full : Bytes)
    (h : full.length < 2 ^ 31) :
    decodePing (encodePing ⟨seq, t, full⟩) =
      some ⟨seq, ExtType.ofU16 t.toU16, full.take 1100⟩ := by
  have hl := encodePing_length ⟨seq, t, full⟩
  simp only at hl
  unfold decodePing
  rw [encodePing, decode_encodeContainer (encodePing_fits ⟨seq, t, full⟩) (by
    rw [encodePing] at hl; omega)]
  have e1 : decodeUint 8 (toLe 8 seq.toNat) = some seq.toNat := by
    unfold decodeUint
    rw [if_pos (by simp), fromLe_toLe_of_lt (by have := seq.toNat_lt; omega)]
  simp only [Option.bind_eq_bind, Option.bind_some, e1, decodeU16_toLe, customPayload,
    UInt64.ofNat_toNat]

theorem decodePing_encode {p : PingBody} (ht : ExtType.ofU16 p.payloadType.toU16 = p.payloadType)
    (hp : p.payload.length ≤ 1100) : decodePing (encodePing p) = some p := by
  obtain ⟨seq, t, full⟩ := p
  simp only at ht hp
  rw [decodePing_encode_any seq t full (by omega), ht, List.take_of_length_le hp]

theorem decodePing_spec {bs : Bytes} {p : PingBody} (h : decodePing bs = some p) :
    ∃ full : Bytes, p.payload = full.take 1100 ∧ encodePing { p with payload := full } = bs := by
  unfold decodePing at h
  cases hd : decodeContainer pingFields bs with
  | none => rw [hd] at h; cases h
  | some vs =>
    rw [hd] at h
    obtain ⟨hf, he⟩ := encode_decodeContainer hd
    match vs, h, hf, he with
    | [a, b, c], h, hf, he =>
      have hla : a.length = 8 := hf.1
      simp only [Option.bind_eq_bind, Option.bind_some, decodeUint, if_pos hla] at h
      cases hb : decodeU16 b with
      | none => simp [hb] at h
      | some t =>
        simp only [hb, Option.bind_some, Option.some.injEq] at h
        subst h
        refine ⟨c, rfl, ?_⟩
        unfold encodePing
        have hlt := fromLe_lt a
        rw [hla] at hlt
        simp only [ExtType.ofU16_toU16, toLe_decodeU16 hb]
        rw [UInt64.toNat_ofNat', Nat.mod_eq_of_lt (by simpa using hlt)]
        have : toLe 8 (fromLe a) = a := by rw [← hla, toLe_fromLe]
        rw [this]; exact he

theorem nodes_fits (t : UInt8) (b : Bytes) : Fits nodesFields [[t], b] := ⟨rfl, trivial⟩

theorem encodeNodes_length {E} (c : EnrCodec E) (t : UInt8) (es : List E) :
    (encodeNodes c t es).length = 5 + (encodeVarList (es.map c.enc)).length := by
  rw [encodeNodes, varPart_length_le (nodes_fits _ _)]
  simp [nodesFields, headLen, Field.headLen, varPart]

theorem varList_count_le (vs : List Bytes) : vs.length ≤ (encodeVarList vs).length := by
  rw [encodeVarList_length]; omega

theorem decodeNodes_encode {E} {c : EnrCodec E} (hc : ∀ e, c.decRlp (c.enc e) = some e)
    {t : UInt8} {es : List E} (h : (encodeNodes c t es).length < 2 ^ 32) :
    decodeNodes c (encodeNodes c t es) = some (t, es) := by
  have hl := encodeNodes_length c t es
  unfold decodeNodes
  rw [encodeNodes, decode_encodeContainer (nodes_fits _ _) h]
  have e1 : decodeUint 1 [t] = some t.toNat := by
    simp [decodeUint, fromLe]
  simp only [Option.bind_eq_bind, Option.bind_some, e1]
  rw [decode_encodeVarList (varList_count_le _) (by omega)]
  simp only [Option.bind_some]
  rw [mapM_map_some es (fun x _ => hc x)]
  simp

theorem encode_decodeNodes {E} {c : EnrCodec E} (hc : ∀ b e, c.decRlp b = some e → c.enc e = b)
    {bs : Bytes} {t : UInt8} {es : List E} (h : decodeNodes c bs = some (t, es)) :
    encodeNodes c t es = bs := by
  unfold decodeNodes at h
  cases hd : decodeContainer nodesFields bs with
  | none => rw [hd] at h; cases h
  | some vs =>
    rw [hd] at h
    obtain ⟨hf, he⟩ := encode_decodeContainer hd
    match vs, h, hf, he with
    | [a, l], h, hf, he =>
      have hla : a.length = 1 := hf.1
      match a, hla, h, he with
      | [x], _, h, he =>
        simp only [Option.bind_eq_bind, Option.bind_some, decodeUint, List.length_cons,
          List.length_nil, if_true] at h
        cases hv : decodeVarList l.length l with
        | none => simp [hv] at h
        | some items =>
          simp only [hv, Option.bind_some] at h
          cases hm : items.mapM c.decRlp with
          | none => simp [hm] at h
          | some es' =>
            simp only [hm, Option.bind_some, Option.some.injEq, Prod.mk.injEq] at h
            obtain ⟨h1, h2⟩ := h
            subst h2
            have hx : t = x := by rw [← h1]; simp [fromLe]
            subst hx
            unfold encodeNodes
            rw [mapM_some_map items es' (fun b x _ hb => hc b x hb) hm, (encode_decodeVarList hv).1]
            exact he

theorem decodeContent_encode {E} {c : EnrCodec E} (hc : ∀ e, c.decStr (c.enc e) = some e)
    {x : Content E} (h : (encodeContent c x).length < 2 ^ 32) :
    decodeContent c (encodeContent c x) = some x := by
  cases x with
  | connectionId id =>
    simp [decodeContent, encodeContent, splitUnion, decodeU16_toLe]
  | content v => simp [decodeContent, encodeContent, splitUnion]
  | enrs es =>
    simp only [encodeContent, List.length_cons] at h
    simp only [decodeContent, encodeContent, splitUnion]
    rw [if_pos (by decide)]
    simp only [Option.bind_eq_bind, Option.bind_some]
    rw [if_neg (by decide), if_neg (by decide), if_pos trivial,
      decode_encodeVarList (varList_count_le _) (by omega)]
    simp only [Option.bind_some]
    rw [mapM_map_some es (fun x _ => hc x)]
    rfl

theorem encode_decodeContent {E} {c : EnrCodec E} (hc : ∀ b e, c.decStr b = some e → c.enc e = b)
    {bs : Bytes} {x : Content E} (h : decodeContent c bs = some x) : encodeContent c x = bs := by
  match bs, h with
  | s :: body, h =>
    simp only [decodeContent, splitUnion] at h
    split at h
    case isFalse => cases h
    simp only [Option.bind_eq_bind, Option.bind_some] at h
    split at h
    · next hs =>
      cases hd : decodeU16 body with
      | none => simp [hd] at h
      | some id =>
        simp only [hd, Option.map_some, Option.some.injEq] at h
        subst h; subst hs
        rw [encodeContent, toLe_decodeU16 hd]
    · split at h
      · next hs => cases h; subst hs; rfl
      · split at h
        · next hs =>
          cases hv : decodeVarList body.length body with
          | none => simp [hv] at h
          | some items =>
            simp only [hv, Option.bind_some] at h
            cases hm : items.mapM c.decStr with
            | none => simp [hm] at h
            | some es =>
              simp only [hm, Option.map_some, Option.some.injEq] at h
              subst h; subst hs
              rw [encodeContent, mapM_some_map items es (fun b x _ hb => hc b x hb) hm,
                (encode_decodeVarList hv).1]
        · cases h

theorem accept_fits (id : UInt16) (k : Bytes) : Fits [.fixed 2, .var] [toLe 2 id.toNat, k] :=
  ⟨toLe_length _ _, trivial⟩

theorem decodeAccept_encode {id : UInt16} {k : Bytes} (h : (encodeAccept id k).length < 2 ^ 32) :
    decodeAccept (encodeAccept id k) = some (id, k) := by
  unfold decodeAccept
  rw [encodeAccept, decode_encodeContainer (accept_fits id k) h]
  simp [decodeU16_toLe]

theorem encode_decodeAccept {bs k : Bytes} {id : UInt16} (h : decodeAccept bs = some (id, k)) :
    encodeAccept id k = bs := by
  unfold decodeAccept at h
  cases hd : decodeContainer [.fixed 2, .var] bs with
  | none => rw [hd] at h; cases h
  | some vs =>
    rw [hd] at h
    obtain ⟨hf, he⟩ := encode_decodeContainer hd
    match vs, h, he with
    | [a, l], h, he =>
      simp only [Option.bind_eq_bind, Option.bind_some] at h
      cases ha : decodeU16 a with
      | none => simp [ha] at h
      | some i =>
        simp only [ha, Option.map_some, Option.some.injEq, Prod.mk.injEq] at h
        obtain ⟨rfl, rfl⟩ := h
        rw [encodeAccept, toLe_decodeU16 ha]; exact he

theorem encodeAccept_length (id : UInt16) (k : Bytes) : (encodeAccept id k).length = 6 + k.length := by
  rw [encodeAccept, varPart_length_le (accept_fits id k)]
  simp [headLen, Field.headLen, varPart]

end Verif.Wire
