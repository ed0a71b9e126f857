import Verif.Model.PingExt
import Verif.Lemmas.Wire

namespace Verif.PingExt
open Verif.Ssz Verif.Wire

theorem splitOn_of_not_mem {sep : UInt8} : ∀ {a : Bytes}, sep ∉ a → splitOn sep a = [a]
  | [], _ => rfl
  | b :: a, h => by
    have hb : b ≠ sep := fun e => h (e ▸ List.mem_cons_self ..)
    have ha : sep ∉ a := fun e => h (List.mem_cons_of_mem _ e)
    simp only [splitOn, if_neg hb, splitOn_of_not_mem ha]

theorem splitOn_append {sep : UInt8} : ∀ {a r : Bytes}, sep ∉ a →
    splitOn sep (a ++ sep :: r) = a :: splitOn sep r
  | [], r, _ => by simp [splitOn]
  | b :: a, r, h => by
    have hb : b ≠ sep := fun e => h (e ▸ List.mem_cons_self ..)
    have ha : sep ∉ a := fun e => h (List.mem_cons_of_mem _ e)
    simp only [List.cons_append, splitOn, if_neg hb, splitOn_append ha]

theorem splitOn_ne_nil (sep : UInt8) (s : Bytes) : splitOn sep s ≠ [] := by
  cases s with
  | nil => simp [splitOn]
  | cons b s =>
    simp only [splitOn]
    split
    · simp
    · split <;> simp

/-- A split with at least two parts starts with a part without separators, then a separator. -/
theorem splitOn_cons {sep : UInt8} : ∀ {s p : Bytes} {ps : List Bytes}, splitOn sep s = p :: ps →
    sep ∉ p ∧ ((ps = [] ∧ s = p) ∨ ∃ r, s = p ++ sep :: r ∧ splitOn sep r = ps)
  | [], p, ps, h => by
    simp only [splitOn, List.cons.injEq] at h
    obtain ⟨rfl, rfl⟩ := h
    exact ⟨by simp, Or.inl ⟨rfl, rfl⟩⟩
  | b :: s, p, ps, h => by
    simp only [splitOn] at h
    split at h
    · next hb =>
      simp only [List.cons.injEq] at h
      obtain ⟨rfl, rfl⟩ := h
      exact ⟨by simp, Or.inr ⟨s, by simp [hb], rfl⟩⟩
    · next hb =>
      split at h
      · next he => exact absurd he (splitOn_ne_nil _ _)
      · next q qs hq =>
        simp only [List.cons.injEq] at h
        obtain ⟨rfl, rfl⟩ := h
        obtain ⟨hm, hc⟩ := splitOn_cons hq
        refine ⟨?_, ?_⟩
        · intro hmem
          rcases List.mem_cons.mp hmem with e | e
          · exact hb e.symm
          · exact hm e
        · rcases hc with ⟨rfl, rfl⟩ | ⟨r, rfl, hr⟩
          · exact Or.inl ⟨rfl, rfl⟩
          · exact Or.inr ⟨r, rfl, hr⟩

theorem splitOn_single {sep : UInt8} {s p : Bytes} (h : splitOn sep s = [p]) : sep ∉ p ∧ s = p := by
  obtain ⟨hm, hc⟩ := splitOn_cons h
  rcases hc with ⟨-, rfl⟩ | ⟨r, _, hr⟩
  · exact ⟨hm, rfl⟩
  · exact absurd hr (splitOn_ne_nil _ _)

theorem splitOn_cons2 {sep : UInt8} {s p q : Bytes} {ps : List Bytes}
    (h : splitOn sep s = p :: q :: ps) : sep ∉ p ∧ ∃ r, s = p ++ sep :: r ∧ splitOn sep r = q :: ps := by
  obtain ⟨hm, hc⟩ := splitOn_cons h
  rcases hc with ⟨h0, -⟩ | hc
  · cases h0
  · exact ⟨hm, hc⟩

theorem rsplitOnce_none {sep : UInt8} : ∀ {s : Bytes}, sep ∉ s → rsplitOnce sep s = none
  | [], _ => rfl
  | b :: s, h => by
    have hb : b ≠ sep := fun e => h (e ▸ List.mem_cons_self ..)
    have hs : sep ∉ s := fun e => h (List.mem_cons_of_mem _ e)
    simp only [rsplitOnce, rsplitOnce_none hs, if_neg hb]

theorem rsplitOnce_append {sep : UInt8} : ∀ {l r : Bytes}, sep ∉ r →
    rsplitOnce sep (l ++ sep :: r) = some (l, r)
  | [], r, h => by simp [rsplitOnce, rsplitOnce_none h]
  | b :: l, r, h => by simp only [List.cons_append, rsplitOnce, rsplitOnce_append h]

theorem rsplitOnce_some {sep : UInt8} : ∀ {s l r : Bytes}, rsplitOnce sep s = some (l, r) →
    sep ∉ r ∧ s = l ++ sep :: r
  | [], _, _, h => by cases h
  | b :: s, l, r, h => by
    simp only [rsplitOnce] at h
    split at h
    · next l' r' hs =>
      cases h
      obtain ⟨h1, rfl⟩ := rsplitOnce_some hs
      exact ⟨h1, rfl⟩
    · next hs =>
      split at h
      · next hb =>
        cases h
        refine ⟨?_, by simp [hb]⟩
        intro hm
        obtain ⟨x, y, hxy⟩ := List.append_of_mem hm
        -- a separator in the rest would have been found by the recursive call
        exact absurd hs (by
          have : ∀ t : Bytes, sep ∈ t → rsplitOnce sep t ≠ none := by
            intro t
            induction t with
            | nil => intro h; cases h
            | cons c t ih =>
              intro h
              simp only [rsplitOnce]
              split
              · simp
              · next hn =>
                rcases List.mem_cons.mp h with e | e
                · simp [e]
                · exact absurd hn (ih e)
          exact this _ hm)
      · cases h

/-- The fields of a `ClientInfo` that can be told apart in its textual form. -/
structure ClientInfo.Clean (c : ClientInfo) : Prop where
  name : slash ∉ c.name
  version : slash ∉ c.version
  commit : slash ∉ c.commit ∧ dash ∉ c.commit
  os : slash ∉ c.os ∧ dash ∉ c.os
  arch : slash ∉ c.arch ∧ dash ∉ c.arch
  language : slash ∉ c.language

theorem slash_ne_dash : slash ≠ dash := by decide

theorem not_mem_mid {a b : Bytes} {x y : UInt8} (hx : x ≠ y) (ha : x ∉ a) (hb : x ∉ b) :
    x ∉ a ++ y :: b := by
  simp only [List.mem_append, List.mem_cons, not_or]; exact ⟨ha, hx, hb⟩

theorem ClientInfo.parse_format {c : ClientInfo} (h : c.Clean) (hl : c.format.length ≤ 200) :
    ClientInfo.parse c.format = some c := by
  have e : c.format = c.name ++ slash :: ((c.version ++ dash :: c.commit) ++ slash ::
      ((c.os ++ dash :: c.arch) ++ slash :: c.language)) := by
    simp [ClientInfo.format]
  unfold ClientInfo.parse
  rw [if_pos hl, e, splitOn_append h.name,
    splitOn_append (not_mem_mid slash_ne_dash h.version h.commit.1),
    splitOn_append (not_mem_mid slash_ne_dash h.os.1 h.arch.1), splitOn_of_not_mem h.language]
  simp only [rsplitOnce_append h.commit.2, splitOn_append h.os.2, splitOn_of_not_mem h.arch.2]

theorem ClientInfo.format_parse {s : Bytes} {c : ClientInfo} (h : ClientInfo.parse s = some c) :
    c.Clean ∧ c.format = s ∧ s.length ≤ 200 := by
  unfold ClientInfo.parse at h
  split at h
  · next hl =>
    split at h
    · next p0 p1 p2 p3 hsp =>
      split at h
      · next v k hr =>
        split at h
        · next o a hos =>
          cases h
          obtain ⟨n0, s1, rfl, hs1⟩ := splitOn_cons2 hsp
          obtain ⟨n1, s2, rfl, hs2⟩ := splitOn_cons2 hs1
          obtain ⟨n2, s3, rfl, hs3⟩ := splitOn_cons2 hs2
          obtain ⟨n3, rfl⟩ := splitOn_single hs3
          obtain ⟨k1, rfl⟩ := rsplitOnce_some hr
          obtain ⟨o1, o2, rfl, ho2⟩ := splitOn_cons2 hos
          obtain ⟨a1, rfl⟩ := splitOn_single ho2
          simp only [List.mem_append, List.mem_cons, not_or] at n1 n2
          exact ⟨⟨n0, n1.1, ⟨n1.2.2, k1⟩, ⟨n2.1, o1⟩, ⟨n2.2.2, a1⟩, n3⟩,
            by simp [ClientInfo.format], hl⟩
        · cases h
      · cases h
    · cases h
  · cases h

theorem ClientInfo.format_ne_nil (c : ClientInfo) : c.format ≠ [] := by
  simp [ClientInfo.format]

/-- A payload the code can build: the radius is a `U256`, the lists respect their limits, the types
are the image of a `u16`, strings are UTF-8. -/
def Ext.Valid (utf8 : Bytes → Bool) : Ext → Prop
  | .capabilities info r caps =>
    (∀ c, info = some c → c.Clean ∧ c.format.length ≤ 200 ∧ utf8 c.format = true) ∧
    (info = none → utf8 [] = true) ∧
    r < 2 ^ 256 ∧ caps.length ≤ 400 ∧ ∀ t ∈ caps, ExtType.ofU16 t.toU16 = t
  | .basicRadius r => r < 2 ^ 256
  | .historyRadius r _ => r < 2 ^ 256
  | .error _ m => m.length ≤ 300

theorem capFits (a b c : Bytes) (h : b.length = 32) : Fits capFields [a, b, c] := ⟨h, trivial⟩

theorem capLen (a b c : Bytes) (h : b.length = 32) :
    (encodeContainer capFields [a, b, c]).length = 40 + a.length + c.length := by
  rw [varPart_length_le (capFits a b c h)]
  simp [capFields, headLen, Field.headLen, varPart]
  omega

theorem capsBytes_length (caps : List ExtType) :
    (encodeFixedList (caps.map fun t => toLe 2 t.toU16.toNat)).length = 2 * caps.length := by
  unfold encodeFixedList
  rw [flatten_length 2 _ (by
    intro v hv
    obtain ⟨t, -, rfl⟩ := List.mem_map.1 hv
    exact toLe_length _ _)]
  simp

theorem infoBytes_length (i : Option ClientInfo) : (infoBytes i).length ≤ 200 := by
  cases i with
  | none => simp [infoBytes]
  | some c => simp [infoBytes]; omega

theorem histFits (a b : Bytes) (ha : a.length = 32) (hb : b.length = 2) : Fits histFields [a, b] :=
  ⟨ha, hb, trivial⟩

theorem errFits (a b : Bytes) (ha : a.length = 2) : Fits errFields [a, b] := ⟨ha, trivial⟩

theorem errLen (a b : Bytes) (ha : a.length = 2) :
    (encodeContainer errFields [a, b]).length = 6 + b.length := by
  rw [varPart_length_le (errFits a b ha)]
  simp [errFields, headLen, Field.headLen, varPart]

theorem histLen (a b : Bytes) (ha : a.length = 32) (hb : b.length = 2) :
    (encodeContainer histFields [a, b]).length = 34 := by
  rw [varPart_length_le (histFits a b ha hb)]
  simp [histFields, headLen, Field.headLen, varPart]

theorem basicFits (a : Bytes) (ha : a.length = 32) : Fits [Field.fixed 32] [a] := ⟨ha, trivial⟩

theorem basicLen (a : Bytes) (ha : a.length = 32) :
    (encodeContainer [Field.fixed 32] [a]).length = 32 := by
  rw [varPart_length_le (basicFits a ha)]
  simp [headLen, Field.headLen, varPart]

/-- No payload the code builds is cut by the 1100 byte limit of `CustomPayload`. -/
theorem Ext.ssz_length {utf8 : Bytes → Bool} {e : Ext} (h : e.Valid utf8) : e.ssz.length ≤ 1040 := by
  cases e with
  | capabilities info r caps =>
    rw [Ext.ssz, capLen _ _ _ (toLe_length _ _), capsBytes_length]
    have := infoBytes_length info
    have := h.2.2.2.1
    omega
  | basicRadius r => rw [Ext.ssz, basicLen _ (toLe_length _ _)]; omega
  | historyRadius r c => rw [Ext.ssz, histLen _ _ (toLe_length _ _) (toLe_length _ _)]; omega
  | error c m =>
    rw [Ext.ssz, errLen _ _ (toLe_length _ _)]
    have : m.length ≤ 300 := h
    omega

theorem Ext.payload_eq {utf8 : Bytes → Bool} {e : Ext} (h : e.Valid utf8) : e.payload = e.ssz := by
  unfold Ext.payload customPayload
  exact List.take_of_length_le (by have := Ext.ssz_length h; omega)

theorem decodeUint_toLe {n v : Nat} (h : v < 256 ^ n) : decodeUint n (toLe n v) = some v := by
  unfold decodeUint
  rw [if_pos (toLe_length _ _), fromLe_toLe_of_lt h]

theorem toLe_decodeUint {n v : Nat} {b : Bytes} (h : decodeUint n b = some v) :
    toLe n v = b ∧ v < 256 ^ n := by
  unfold decodeUint at h
  split at h
  · next hl =>
    cases h
    subst hl
    exact ⟨toLe_fromLe _, fromLe_lt _⟩
  · cases h

theorem pow256 : (2 : Nat) ^ 256 = 256 ^ 32 := by rw [show (256 : Nat) = 2 ^ 8 from rfl, ← Nat.pow_mul]

theorem decodeExtType_toLe {t : ExtType} (h : ExtType.ofU16 t.toU16 = t) :
    decodeExtType (toLe 2 t.toU16.toNat) = some t := by
  unfold decodeExtType
  rw [decodeU16_toLe]
  simp [h]

theorem toLe_decodeExtType {b : Bytes} {t : ExtType} (h : decodeExtType b = some t) :
    toLe 2 t.toU16.toNat = b ∧ ExtType.ofU16 t.toU16 = t := by
  unfold decodeExtType at h
  cases hd : decodeU16 b with
  | none => rw [hd] at h; cases h
  | some x =>
    rw [hd] at h
    simp only [Option.map_some, Option.some.injEq] at h
    subst h
    rw [ExtType.ofU16_toU16]
    exact ⟨toLe_decodeU16 hd, rfl⟩

theorem decodeInfo_infoBytes {utf8 : Bytes → Bool} {info : Option ClientInfo}
    (h1 : ∀ c, info = some c → c.Clean ∧ c.format.length ≤ 200 ∧ utf8 c.format = true)
    (h2 : info = none → utf8 [] = true) : decodeInfo utf8 (infoBytes info) = some info := by
  cases info with
  | none => simp [decodeInfo, infoBytes, h2 rfl]
  | some c =>
    obtain ⟨hc, hl, hu⟩ := h1 c rfl
    have e : infoBytes (some c) = c.format := List.take_of_length_le hl
    rw [e]
    unfold decodeInfo
    rw [if_pos hu, if_neg c.format_ne_nil, ClientInfo.parse_format hc hl]
    rfl

theorem infoBytes_decodeInfo {utf8 : Bytes → Bool} {bs : Bytes} {info : Option ClientInfo}
    (h : decodeInfo utf8 bs = some info) :
    infoBytes info = bs ∧
    (∀ c, info = some c → c.Clean ∧ c.format.length ≤ 200 ∧ utf8 c.format = true) ∧
    (info = none → utf8 [] = true) := by
  unfold decodeInfo at h
  split at h
  · next hu =>
    split at h
    · next hb =>
      cases h
      subst hb
      exact ⟨rfl, (fun c hc => by cases hc), fun _ => hu⟩
    · cases hp : ClientInfo.parse bs with
      | none => rw [hp] at h; cases h
      | some c =>
        rw [hp] at h
        simp only [Option.map_some, Option.some.injEq] at h
        subst h
        obtain ⟨hc, rfl, hl⟩ := ClientInfo.format_parse hp
        refine ⟨List.take_of_length_le hl, ?_, by intro h; cases h⟩
        intro c' hc'
        cases hc'
        exact ⟨hc, hl, hu⟩
  · cases h

theorem decode_ssz {utf8 : Bytes → Bool} {e : Ext} (h : e.Valid utf8) :
    decodeExt utf8 e.type e.ssz = some e := by
  have hlen := Ext.ssz_length h
  cases e with
  | capabilities info r caps =>
    obtain ⟨h1, h2, h3, h4, h5⟩ := h
    simp only [Ext.type, decodeExt, decodeCapabilities, Ext.ssz] at hlen ⊢
    rw [decode_encodeContainer (capFits _ _ _ (toLe_length _ _)) (by omega)]
    simp only [decodeByteList, if_pos (infoBytes_length info)]
    rw [decodeUint_toLe (by rw [← pow256]; exact h3),
      decode_encodeFixedList (by omega) (by
        intro v hv
        obtain ⟨t, -, rfl⟩ := List.mem_map.1 hv
        exact toLe_length _ _) (by simpa using h4)]
    simp only [Option.bind_eq_bind, Option.bind_some]
    rw [mapM_map_some caps (fun t ht => decodeExtType_toLe (h5 t ht))]
    simp only [Option.bind_some]
    rw [decodeInfo_infoBytes h1 h2]
    rfl
  | basicRadius r =>
    simp only [Ext.type, decodeExt, decodeBasicRadius, Ext.ssz] at hlen ⊢
    rw [decode_encodeContainer (basicFits _ (toLe_length _ _)) (by omega)]
    have : decodeUint 32 (toLe 32 r) = some r := decodeUint_toLe (by rw [← pow256]; exact h)
    simp only [this, Option.map_some]
  | historyRadius r c =>
    simp only [Ext.type, decodeExt, decodeHistoryRadius, Ext.ssz] at hlen ⊢
    rw [decode_encodeContainer (histFits _ _ (toLe_length _ _) (toLe_length _ _)) (by omega)]
    have : decodeUint 32 (toLe 32 r) = some r := decodeUint_toLe (by rw [← pow256]; exact h)
    simp only [this, decodeU16_toLe, Option.bind_eq_bind, Option.bind_some]
  | error c m =>
    simp only [Ext.type, decodeExt, decodePingError, Ext.ssz] at hlen ⊢
    rw [decode_encodeContainer (errFits _ _ (toLe_length _ _)) (by omega)]
    have hm : m.length ≤ 300 := h
    simp only [decodeU16_toLe, decodeByteList, if_pos hm, Option.bind_eq_bind, Option.bind_some]

theorem decodeExt_spec {utf8 : Bytes → Bool} {t : ExtType} {bs : Bytes} {e : Ext}
    (h : decodeExt utf8 t bs = some e) : e.type = t ∧ e.Valid utf8 ∧ e.ssz = bs := by
  cases t with
  | capabilities =>
    simp only [decodeExt, decodeCapabilities] at h
    split at h
    · next a b c hd =>
      obtain ⟨hf, hb⟩ := encode_decodeContainer hd
      simp only [Option.bind_eq_bind, Option.bind_eq_some_iff] at h
      obtain ⟨ib, h1, r, h2, cs, h3, caps, h4, info, h5, h6⟩ := h
      cases h6
      unfold decodeByteList at h1
      split at h1
      · cases h1
        obtain ⟨hi, hi1, hi2⟩ := infoBytes_decodeInfo h5
        obtain ⟨hr, hr2⟩ := toLe_decodeUint h2
        obtain ⟨hc, hcl, hcv⟩ := encode_decodeFixedList h3
        have hm := mapM_some_map (g := fun t : ExtType => toLe 2 t.toU16.toNat) cs caps
          (fun b x _ hx => (toLe_decodeExtType hx).1) h4
        have hlen : caps.length = cs.length := by rw [← hm]; simp
        refine ⟨rfl, ⟨hi1, hi2, by rw [pow256]; exact hr2, by omega, ?_⟩, ?_⟩
        · intro t ht
          have : ∀ (l : List Bytes) (r : List ExtType), l.mapM decodeExtType = some r →
              ∀ t ∈ r, ExtType.ofU16 t.toU16 = t := by
            intro l
            induction l with
            | nil => intro r hr t ht; cases hr; cases ht
            | cons b l ih =>
              intro r hr t ht
              rw [List.mapM_cons] at hr
              simp only [Option.bind_eq_bind, Option.bind_eq_some_iff] at hr
              obtain ⟨x, hx, y, hy, hxy⟩ := hr
              cases hxy
              rcases List.mem_cons.mp ht with e | e
              · subst e; exact (toLe_decodeExtType hx).2
              · exact ih y hy t e
          exact this _ _ h4 t ht
        · simp only [Ext.ssz, hi, hr, hm, hc]; exact hb
      · cases h1
    · cases h
  | basicRadius =>
    simp only [decodeExt, decodeBasicRadius] at h
    split at h
    · next a hd =>
      obtain ⟨hf, hb⟩ := encode_decodeContainer hd
      simp only [Option.map_eq_some_iff] at h
      obtain ⟨r, h1, rfl⟩ := h
      obtain ⟨hr, hr2⟩ := toLe_decodeUint h1
      refine ⟨rfl, ?_, ?_⟩
      · show r < 2 ^ 256
        rw [pow256]; exact hr2
      · simp only [Ext.ssz, hr]; exact hb
    · cases h
  | historyRadius =>
    simp only [decodeExt, decodeHistoryRadius] at h
    split at h
    · next a b hd =>
      obtain ⟨hf, hb⟩ := encode_decodeContainer hd
      simp only [Option.bind_eq_bind, Option.bind_eq_some_iff] at h
      obtain ⟨r, h1, c, h2, h3⟩ := h
      cases h3
      obtain ⟨hr, hr2⟩ := toLe_decodeUint h1
      refine ⟨rfl, ?_, ?_⟩
      · show r < 2 ^ 256
        rw [pow256]; exact hr2
      · simp only [Ext.ssz, hr, toLe_decodeU16 h2]; exact hb
    · cases h
  | error =>
    simp only [decodeExt, decodePingError] at h
    split at h
    · next a b hd =>
      obtain ⟨hf, hb⟩ := encode_decodeContainer hd
      simp only [Option.bind_eq_bind, Option.bind_eq_some_iff] at h
      obtain ⟨c, h1, m, h2, h3⟩ := h
      cases h3
      unfold decodeByteList at h2
      split at h2
      · next hm =>
        cases h2
        refine ⟨rfl, hm, ?_⟩
        simp only [Ext.ssz, toLe_decodeU16 h1]; exact hb
      · cases h2
    · cases h
  | nonSupported n => cases h

end Verif.PingExt
