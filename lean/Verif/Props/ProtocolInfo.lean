import Verif.Lemmas.Rlp
import Verif.Lemmas.ExceptEq

/-!
# C101: the entries `p` and `pv` of a node record

The specification is in `ProtocolInfoSpec`: RLP, and the entry as a list of two versions, a chain id, and possibly more.
-/

namespace Verif.Props
open Verif.ProtocolInfo Verif.Rlp Verif.RlpFormat
open Verif.Versions (Version encodeList decodeList)

theorem ofByte_toByte (b : UInt8) : (Version.ofByte b).toByte = b := by
  unfold Version.ofByte
  split
  · next h => subst h; rfl
  · split
    · next h => subst h; rfl
    · split
      · next h => subst h; rfl
      · rfl

theorem named_iff {v : Version} : Named v ↔ v = Version.ofByte v.toByte := by
  cases v with
  | v0 => exact ⟨fun _ => rfl, fun _ => nofun⟩
  | v1 => exact ⟨fun _ => rfl, fun _ => nofun⟩
  | v2 => exact ⟨fun _ => rfl, fun _ => nofun⟩
  | unspecified b =>
    simp only [Version.toByte]
    constructor
    · intro h
      have hb := h b rfl
      unfold Version.ofByte
      rw [if_neg (by rintro rfl; exact absurd hb (by decide)), if_neg (by rintro rfl; exact absurd hb (by decide)),
        if_neg (by rintro rfl; exact absurd hb (by decide))]
    · intro h c hc
      cases hc
      unfold Version.ofByte at h
      split at h
      · cases h
      · next h0 =>
        split at h
        · cases h
        · next h1 =>
          split at h
          · cases h
          · next h2 =>
            rcases Nat.lt_or_ge b.toNat 3 with h3 | h3
            · have : b.toNat = 0 ∨ b.toNat = 1 ∨ b.toNat = 2 := by omega
              rcases this with h | h | h
              · exact absurd (UInt8.toNat_inj.mp h) h0
              · exact absurd (UInt8.toNat_inj.mp h) h1
              · exact absurd (UInt8.toNat_inj.mp h) h2
            · exact h3

theorem uint8_bound (b : UInt8) : b.toNat < 256 ^ 8 := Nat.lt_trans b.toNat_lt (by decide)
theorem uint64_bound (b : UInt64) : b.toNat < 256 ^ 8 := b.toNat_lt

/-- What is read as an entry `p`, for all bytes: a list that begins with the lowest version, the highest version and the chain
id, in the only form that RLP allows; the lowest is not above the highest. What else is in the list is skipped, and what follows
the list is left. -/
theorem C101_entry (bs rest : Bytes) (i : Info) :
    ProtocolInfo.decode bs = .ok (i, rest) ↔
      i.min.toByte ≤ i.max.toByte ∧ Named i.min ∧ Named i.max ∧
      ∃ more entry, IsEntry i.min.toByte i.max.toByte i.chainId more entry ∧ bs = entry ++ rest := by
  constructor
  · intro h
    unfold ProtocolInfo.decode at h
    split at h
    · cases h
    · next hd buf h1 =>
      obtain ⟨list, n⟩ := hd
      split at h
      · cases h
      · next hlist =>
        have hlist : list = true := by simpa using hlist
        subst hlist
        obtain ⟨p, hp, rfl, hn⟩ := decode_list.mp h1
        split at h
        · cases h
        · split at h
          · cases h
          · next min buf1 h2 =>
            split at h
            · cases h
            · next max buf2 h3 =>
              split at h
              · cases h
              · next chainId buf3 h4 =>
                obtain ⟨a, ha, rfl, hab⟩ := decodeInt_iff.mp h2
                obtain ⟨b, hb, rfl, hbb⟩ := decodeInt_iff.mp h3
                obtain ⟨c, hc, rfl, hcb⟩ := decodeInt_iff.mp h4
                simp only at h
                split at h
                · cases h
                · next hcons =>
                  split at h
                  · cases h
                  · next j hj =>
                    cases h
                    unfold ProtocolInfo.new at hj
                    split at hj
                    · next hle =>
                      cases hj
                      simp only [ofByte_toByte] at hle ⊢
                      refine ⟨UInt8.le_iff_toNat_le.mpr hle, named_iff.mpr (by rw [ofByte_toByte]),
                        named_iff.mpr (by rw [ofByte_toByte]), ?_⟩
                      have e1 : (UInt8.ofNat min).toNat = min := by rw [UInt8.toNat_ofNat']; omega
                      have e2 : (UInt8.ofNat max).toNat = max := by rw [UInt8.toNat_ofNat']; omega
                      have e3 : (UInt64.ofNat chainId).toNat = chainId := by rw [UInt64.toNat_ofNat']; omega
                      simp only [List.length_append] at hcons hn
                      have hm : (buf3.take (n - (a.length + (b.length + (c.length + buf3.length)) - buf3.length))).length =
                          n - (a.length + b.length + c.length) := by
                        rw [List.length_take]; omega
                      refine ⟨buf3.take (n - (a.length + (b.length + (c.length + buf3.length)) - buf3.length)), _,
                        ⟨a, b, c, by rw [e1]; exact ha, by rw [e2]; exact hb, by rw [e3]; exact hc, p, ?_, rfl⟩, ?_⟩
                      · simp only [List.length_append, hm]
                        rw [show a.length + b.length + c.length + (n - (a.length + b.length + c.length)) = n by omega]
                        exact hp
                      · simp only [List.append_assoc, List.length_append, List.take_append_drop]
                    · cases hj
  · rintro ⟨hle, hn1, hn2, more, entry, ⟨a, b, c, ha, hb, hc, p, hp, rfl⟩, rfl⟩
    unfold ProtocolInfo.decode
    rw [List.append_assoc p, decode_list.mpr ⟨p, hp, rfl, by simp⟩]
    simp only [Bool.not_true, Bool.false_eq_true, if_false]
    rw [if_neg (by simp)]
    have h1 : decodeInt 1 (a ++ b ++ c ++ more ++ rest) = .ok (i.min.toByte.toNat, b ++ (c ++ (more ++ rest))) :=
      decodeInt_iff.mpr ⟨a, ha, by simp, by simpa using i.min.toByte.toNat_lt⟩
    have h2 : decodeInt 1 (b ++ (c ++ (more ++ rest))) = .ok (i.max.toByte.toNat, c ++ (more ++ rest)) :=
      decodeInt_iff.mpr ⟨b, hb, rfl, by simpa using i.max.toByte.toNat_lt⟩
    have h3 : decodeInt 8 (c ++ (more ++ rest)) = .ok (i.chainId.toNat, more ++ rest) :=
      decodeInt_iff.mpr ⟨c, hc, rfl, uint64_bound _⟩
    rw [h1]; simp only
    rw [h2]; simp only
    rw [h3]; simp only
    rw [if_neg (by simp; omega)]
    simp only [UInt8.ofNat_toNat, UInt64.ofNat_toNat, ← named_iff.mp hn1, ← named_iff.mp hn2]
    unfold ProtocolInfo.new
    rw [if_pos (UInt8.le_iff_toNat_le.mp hle)]
    simp only [List.length_append]
    congr 2
    rw [show a.length + b.length + c.length + more.length -
        (a.length + b.length + c.length + more.length + rest.length - (more.length + rest.length)) = more.length by omega]
    simp

/-- What is written is an entry with nothing else in it, and the length that is announced for it is its length. -/
theorem C101_encode (i : Info) : IsEntry i.min.toByte i.max.toByte i.chainId [] i.encode ∧ i.encode.length = i.length := by
  have hl : (encodeInt i.min.toByte.toNat ++ encodeInt i.max.toByte.toNat ++ encodeInt i.chainId.toNat ++ []).length =
      i.payloadLength := by
    simp only [List.length_append, encodeInt_length, List.length_nil, Nat.add_zero]
    rfl
  have hb : i.payloadLength < 256 ^ 8 := by
    have h1 : ∀ v, v < 256 ^ 8 → lengthInt v ≤ 9 := by
      intro v hv
      have := trimmed_length_le.mpr hv
      unfold lengthInt
      split <;> omega
    have h2 := h1 _ (uint8_bound i.min.toByte)
    have h3 := h1 _ (uint8_bound i.max.toByte)
    have h4 := h1 _ (uint64_bound i.chainId)
    unfold Info.payloadLength
    omega
  constructor
  · refine ⟨_, _, _, encodeInt_int (uint8_bound _), encodeInt_int (uint8_bound _), encodeInt_int (uint64_bound _),
      Header.encode ⟨true, i.payloadLength⟩, ?_, ?_⟩
    · rw [hl]
      exact (prefix_encode (list := true)).mpr ⟨rfl, hb⟩
    · unfold Info.encode
      simp
  · unfold Info.encode Info.length
    simp only [List.append_nil, List.length_append, header_encode_length] at hl ⊢
    omega

/-- Whatever a node may say about itself is read back by other nodes, whatever follows it. -/
theorem C101_round_trip (min max : Version) (chainId : UInt64) (i : Info) (hn : Named min) (hx : Named max)
    (h : ProtocolInfo.new min max chainId = some i) (rest : Bytes) :
    ProtocolInfo.decode (i.encode ++ rest) = .ok (i, rest) ∧ i = ⟨min, max, chainId⟩ := by
  unfold ProtocolInfo.new at h
  split at h
  · next hle =>
    cases h
    exact ⟨(C101_entry _ _ _).mpr ⟨UInt8.le_iff_toNat_le.mpr hle, hn, hx, [], _, (C101_encode _).1, rfl⟩, rfl⟩
  · cases h

/-- Ranges of versions can be made exactly if the lowest is not above the highest. -/
theorem C101_new (min max : Version) (chainId : UInt64) :
    ProtocolInfo.new min max chainId ≠ none ↔ min.toByte ≤ max.toByte := by
  unfold ProtocolInfo.new
  rw [UInt8.le_iff_toNat_le]
  split <;> simp_all

theorem supports_iff {i : Info} {v : Version} : i.supports v = true ↔ Speaks i v.toByte := by
  simp [Info.supports, Speaks, UInt8.le_iff_toNat_le]

theorem search_some {other : Info} : ∀ {k top : Nat} {v : Version}, top < 256 → search other top k = some v →
    ∃ b : UInt8, v = Version.ofByte b ∧ top < b.toNat + k ∧ b.toNat ≤ top ∧ Speaks other b ∧
      ∀ c : UInt8, b < c → c.toNat ≤ top → ¬ Speaks other c
  | 0, _, _, _, h => by cases h
  | k + 1, top, v, ht, h => by
    simp only [search] at h
    have e : (UInt8.ofNat top).toNat = top := by rw [UInt8.toNat_ofNat']; omega
    split at h
    · next hs =>
      cases h
      have hs := supports_iff.mp hs
      rw [ofByte_toByte] at hs
      refine ⟨_, rfl, by omega, by omega, hs, ?_⟩
      intro c hc hc'
      rw [UInt8.lt_iff_toNat_lt] at hc
      omega
    · next hs =>
      rw [supports_iff, ofByte_toByte] at hs
      have hk : k ≠ 0 := by rintro rfl; cases h
      obtain ⟨b, h1, h2, h3, h4, h5⟩ := search_some (by omega) h
      by_cases h0 : top = 0
      · subst h0
        have : b = UInt8.ofNat 0 := UInt8.toNat_inj.mp (by simp at h3 ⊢; omega)
        rw [this] at h4
        exact absurd h4 hs
      refine ⟨b, h1, by omega, by omega, h4, ?_⟩
      intro c hc hc'
      by_cases hct : c.toNat = top
      · have : c = UInt8.ofNat top := UInt8.toNat_inj.mp (by rw [e]; exact hct)
        rw [this]
        exact hs
      · exact h5 c hc (by omega)

theorem search_none {other : Info} : ∀ {k top : Nat}, top < 256 → search other top k = none →
    ∀ c : UInt8, top < c.toNat + k → c.toNat ≤ top → ¬ Speaks other c
  | 0, _, _, _, c, h1, h2 => by omega
  | k + 1, top, ht, h, c, h1, h2 => by
    simp only [search] at h
    have e : (UInt8.ofNat top).toNat = top := by rw [UInt8.toNat_ofNat']; omega
    split at h
    · cases h
    · next hs =>
      rw [supports_iff, ofByte_toByte] at hs
      by_cases hct : c.toNat = top
      · have : c = UInt8.ofNat top := UInt8.toNat_inj.mp (by rw [e]; exact hct)
        rw [this]
        exact hs
      · exact search_none (by omega) h c (by omega) (by omega)

/-- Two nodes of the same chain use the highest version that both speak; there is none if they speak no version in common or are
of different chains. -/
theorem C101_common (a b : Info) (v : Version) :
    a.highestCommon b = some v ↔ Named v ∧ a.chainId = b.chainId ∧ Speaks a v.toByte ∧ Speaks b v.toByte ∧
      ∀ w, Speaks a w → Speaks b w → w ≤ v.toByte := by
  have hsound : ∀ v, a.highestCommon b = some v → Named v ∧ a.chainId = b.chainId ∧ Speaks a v.toByte ∧ Speaks b v.toByte ∧
      ∀ w, Speaks a w → Speaks b w → w ≤ v.toByte := by
    intro v h
    unfold Info.highestCommon at h
    split at h
    · cases h
    · next hc =>
      obtain ⟨x, rfl, h1, h2, h3, h4⟩ := search_some a.max.toByte.toNat_lt h
      rw [ofByte_toByte]
      refine ⟨named_iff.mpr (by rw [ofByte_toByte]), Decidable.not_not.mp hc, ⟨?_, ?_⟩, h3, ?_⟩
      · rw [UInt8.le_iff_toNat_le]; omega
      · rw [UInt8.le_iff_toNat_le]; omega
      · intro w ha hb
        rcases UInt8.lt_or_le x w with hw | hw
        · exact absurd hb (h4 w hw (UInt8.le_iff_toNat_le.mp ha.2))
        · exact hw
  constructor
  · exact hsound v
  · rintro ⟨h1, h2, h3, h4, h5⟩
    cases hr : a.highestCommon b with
    | some u =>
      obtain ⟨g1, _, g3, g4, g5⟩ := hsound u hr
      have e : u.toByte = v.toByte := UInt8.le_antisymm (h5 _ g3 g4) (g5 _ h3 h4)
      rw [named_iff.mp g1, e, ← named_iff.mp h1]
    | none =>
      unfold Info.highestCommon at hr
      rw [if_neg (by simpa using h2)] at hr
      have ha := UInt8.le_iff_toNat_le.mp h3.1
      have hb := UInt8.le_iff_toNat_le.mp h3.2
      exact absurd h4 (search_none a.max.toByte.toNat_lt hr v.toByte (by omega) hb)

/-- Both come to the same result, so they speak the same version to each other. -/
theorem C101_symmetric (a b : Info) : a.highestCommon b = b.highestCommon a := by
  apply Option.ext
  intro v
  rw [C101_common, C101_common]
  constructor
  · rintro ⟨h1, h2, h3, h4, h5⟩
    exact ⟨h1, h2.symm, h4, h3, fun w hb ha => h5 w ha hb⟩
  · rintro ⟨h1, h2, h3, h4, h5⟩
    exact ⟨h1, h2.symm, h4, h3, fun w hb ha => h5 w ha hb⟩

/-! ## The entry that is in use -/

theorem map_ofByte_toByte {vs : List Version} (h : ∀ v ∈ vs, Named v) : (vs.map Version.toByte).map Version.ofByte = vs := by
  rw [List.map_map]
  conv => rhs; rw [← List.map_id vs]
  exact List.map_congr_left fun v hv => (named_iff.mp (h v hv)).symm

/-- What is read as an entry `pv`, for all bytes: the string of at most eight versions, one byte each. -/
theorem C101_versions (bs rest : Bytes) (vs : List Version) :
    decodeVersions bs = .ok (vs, rest) ↔
      vs.length ≤ 8 ∧ (∀ v ∈ vs, Named v) ∧ ∃ entry, IsString (vs.map Version.toByte) entry ∧ bs = entry ++ rest := by
  unfold decodeVersions
  constructor
  · intro h
    split at h
    · cases h
    · next s buf hs =>
      split at h
      · cases h
      · next ws hd =>
        cases h
        unfold decodeList at hd
        split at hd
        · next hl =>
          cases hd
          refine ⟨by simpa using hl, ?_, ?_⟩
          · intro v hv
            obtain ⟨b, _, rfl⟩ := List.mem_map.mp hv
            exact named_iff.mpr (by rw [ofByte_toByte])
          · obtain ⟨p, h1, h2⟩ := decodeBytes_iff.mp hs
            refine ⟨p, ?_, h2⟩
            rw [List.map_map, show Version.toByte ∘ Version.ofByte = id from funext ofByte_toByte, List.map_id]
            exact h1
        · cases hd
  · rintro ⟨hl, hn, p, h1, rfl⟩
    rw [decodeBytes_iff.mpr ⟨p, h1, rfl⟩]
    simp only [decodeList, List.length_map, hl, if_true, map_ofByte_toByte hn]

/-- The versions that a node puts into its record are what others read there. -/
theorem C101_versions_round_trip (vs : List Version) (hl : vs.length ≤ 8) (hn : ∀ v ∈ vs, Named v) (rest : Bytes) :
    decodeVersions (encodeVersions vs ++ rest) = .ok (vs, rest) :=
  (C101_versions _ _ _).mpr ⟨hl, hn, _, encodeBytes_string (by
    show (vs.map Version.toByte).length < _
    rw [List.length_map]
    exact Nat.lt_of_le_of_lt hl (by decide)), rfl⟩

/-- The version that a node uses with a peer, from the bytes of the peer's record: the last one in its own list that is in the
peer's list; it is an error if there is none or the bytes are not an entry; and version 0 if there is no entry. -/
theorem C101_negotiate (supported : List Version) (entry : Option Bytes) (v : Version) :
    ProtocolInfo.latestCommon supported entry = .ok v ↔
      (entry = none ∧ v = .v0) ∨
      ∃ (vs : List Version) (string rest : Bytes) (pre post : List Version), entry = some (string ++ rest) ∧ IsString (vs.map Version.toByte) string ∧ vs.length ≤ 8 ∧
        (∀ w ∈ vs, Named w) ∧ v ∈ vs ∧ supported = pre ++ v :: post ∧ ∀ w ∈ post, w ∉ vs := by
  have hfind : ∀ (l vs : List Version), l.reverse.find? (fun v => vs.contains v) = some v ↔
      v ∈ vs ∧ ∃ pre post, l = pre ++ v :: post ∧ ∀ w ∈ post, w ∉ vs := by
    intro l vs
    rw [List.find?_eq_some_iff_append]
    simp only [List.contains_iff_mem, Bool.not_eq_true']
    refine and_congr Iff.rfl ?_
    constructor
    · rintro ⟨as, bs, h1, h2⟩
      refine ⟨bs.reverse, as.reverse, ?_, ?_⟩
      · have := congrArg List.reverse h1
        simpa using this
      · intro w hw hm
        have := h2 w (by simpa using hw)
        rw [List.contains_iff_mem.mpr hm] at this
        cases this
    · rintro ⟨pre, post, rfl, h2⟩
      refine ⟨post.reverse, pre.reverse, by simp, ?_⟩
      intro w hw
      have := h2 w (by simpa using hw)
      cases hc : vs.contains w with
      | false => rfl
      | true => exact absurd (List.contains_iff_mem.mp hc) this
  unfold ProtocolInfo.latestCommon
  cases entry with
  | none => simp [eq_comm]
  | some raw =>
    simp only [reduceCtorEq, false_and, false_or]
    constructor
    · intro h
      split at h
      · cases h
      · next vs rest hd =>
        split at h
        · next u hu =>
          cases h
          obtain ⟨h1, h2, p, h3, rfl⟩ := (C101_versions _ _ _).mp hd
          obtain ⟨h4, pre, post, h5, h6⟩ := (hfind _ _).mp hu
          exact ⟨vs, p, rest, pre, post, rfl, h3, h1, h2, h4, h5, h6⟩
        · cases h
    · rintro ⟨vs, p, rest, pre, post, h1, h2, h3, h4, h5, h6, h7⟩
      cases h1
      rw [(C101_versions _ _ _).mpr ⟨h3, h4, p, h2, rfl⟩]
      simp only
      rw [(hfind _ _).mpr ⟨h5, pre, post, h6, h7⟩]

end Verif.Props

namespace Verif.ProtocolInfoExample
open Verif.ProtocolInfo Verif.Rlp Verif.RlpFormat Verif.Props
open Verif.Versions (Version)

/-- The entry of the Hoodi test network. -/
def hoodi : Info := ⟨.v2, .v2, 560048⟩
def entry : Bytes := [0xc6, 0x02, 0x02, 0x83, 0x08, 0x8b, 0xb0]

example : ProtocolInfo.new .v2 .v2 560048 = some hoodi ∧ Named .v2 := ⟨by decide, nofun⟩
example : hoodi.encode = entry := by decide +kernel
example : ProtocolInfo.decode (entry ++ [1, 2]) = .ok (hoodi, [1, 2]) := by decide +kernel

/-- A peer with a version that is not known here and one more field. -/
example : ProtocolInfo.decode [0xc6, 0x02, 0x03, 0x01, 0x82, 0xab, 0xcd] = .ok (⟨.v2, .unspecified 3, 1⟩, []) := by decide +kernel

/-- A list of more than 55 bytes. -/
example : ProtocolInfo.decode ([0xf8, 0x3b, 0x02, 0x03, 0x01] ++ List.replicate 56 7 ++ [9]) =
    .ok (⟨.v2, .unspecified 3, 1⟩, [9]) := by decide +kernel

/-- Refused: the lowest version above the highest; a number with a zero in front; a length that is too long. -/
example : ProtocolInfo.decode [0xc3, 0x03, 0x02, 0x01] = .error .custom ∧
    ProtocolInfo.decode [0xc5, 0x02, 0x03, 0x82, 0x00, 0x01] = .error .leadingZero ∧
    ProtocolInfo.decode [0xc4, 0x02, 0x81, 0x03, 0x01] = .error .nonCanonicalSingleByte ∧
    ProtocolInfo.decode [0xc2, 0x02, 0x03, 0x01] = .error (.listLengthMismatch 2 3) ∧
    ProtocolInfo.decode [0xf8, 0x03, 0x02, 0x03, 0x01] = .error .nonCanonicalSize := by decide +kernel

example : Info.highestCommon ⟨.v0, .v2, 1⟩ ⟨.v1, .unspecified 5, 1⟩ = some .v2 ∧
    Info.highestCommon ⟨.v0, .v2, 1⟩ ⟨.v1, .unspecified 5, 2⟩ = none ∧
    Info.highestCommon ⟨.v0, .v0, 1⟩ ⟨.v1, .unspecified 5, 1⟩ = none := by decide +kernel

/-- The entry of a node of the main network, and that of one with the version 1 only. -/
example : encodeVersions [.v0, .v1] = [0x82, 0, 1] ∧ encodeVersions [.v1] = [1] ∧
    ProtocolInfo.latestCommon [.v0, .v1] (some [0x82, 0, 1]) = .ok .v1 ∧
    ProtocolInfo.latestCommon [.v0, .v1] (some [0]) = .ok .v0 ∧
    ProtocolInfo.latestCommon [.v1] (some [0]) = .error .noMatchingVersion ∧
    ProtocolInfo.latestCommon [.v1] (some [0xc0]) = .error .failedToDecode := by decide +kernel

end Verif.ProtocolInfoExample
