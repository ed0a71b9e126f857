import Verif.Model.BeaconValue
import Verif.Lemmas.SszTypes

namespace Verif.BeaconValue
open Verif.Ssz Verif.SszT Verif.ContentKey
open Verif.LightClient (Header)

theorem sound_header : Sound headerCodec :=
  sound_container (recSound_cons sound_u64 <| recSound_cons sound_u64 <| recSound_cons sound_hash <|
    recSound_cons sound_hash <| recSound_cons sound_hash recSound_nil) (fun _ => rfl) (fun _ => rfl)

theorem sound_execCapella : Sound execCapellaCodec :=
  sound_container (recSound_cons sound_hash <| recSound_cons (sound_bytesN _) <| recSound_cons sound_hash <|
    recSound_cons sound_hash <| recSound_cons (sound_bytesN _) <| recSound_cons sound_hash <|
    recSound_cons sound_u64 <| recSound_cons sound_u64 <| recSound_cons sound_u64 <|
    recSound_cons sound_u64 <| recSound_cons (sound_byteList _) <| recSound_cons sound_u256 <|
    recSound_cons sound_hash <| recSound_cons sound_hash <| recSound_cons sound_hash recSound_nil)
    (fun _ => rfl) (fun _ => rfl)

theorem sound_execDeneb : Sound execDenebCodec :=
  sound_container (recSound_cons sound_hash <| recSound_cons (sound_bytesN _) <| recSound_cons sound_hash <|
    recSound_cons sound_hash <| recSound_cons (sound_bytesN _) <| recSound_cons sound_hash <|
    recSound_cons sound_u64 <| recSound_cons sound_u64 <| recSound_cons sound_u64 <|
    recSound_cons sound_u64 <| recSound_cons (sound_byteList _) <| recSound_cons sound_u256 <|
    recSound_cons sound_hash <| recSound_cons sound_hash <| recSound_cons sound_hash <|
    recSound_cons sound_u64 <| recSound_cons sound_u64 recSound_nil)
    (fun _ => rfl) (fun _ => rfl)

theorem sound_hashes (n : Nat) : Sound (vector hash n) := sound_vector sound_hash rfl n

theorem sound_lcHeader : ∀ f, Sound (lcHeaderCodec f)
  | .bellatrix => sound_container (recSound_cons sound_header recSound_nil) (fun _ => rfl) (fun _ => rfl)
  | .capella => sound_container (recSound_cons sound_header <| recSound_cons sound_execCapella <|
      recSound_cons (sound_hashes 4) recSound_nil) (fun _ => rfl) (fun _ => rfl)
  | .deneb => sound_container (recSound_cons sound_header <| recSound_cons sound_execDeneb <|
      recSound_cons (sound_hashes 4) recSound_nil) (fun _ => rfl) (fun _ => rfl)
  | .electra => sound_container (recSound_cons sound_header <| recSound_cons sound_execDeneb <|
      recSound_cons (sound_hashes 4) recSound_nil) (fun _ => rfl) (fun _ => rfl)

theorem sound_syncCommittee : Sound syncCommitteeCodec :=
  sound_container (recSound_cons (sound_vector (sound_bytesN 48) rfl 512) <|
    recSound_cons (sound_bytesN 48) recSound_nil) (fun _ => rfl) (fun _ => rfl)

theorem sound_syncAggregate : Sound syncAggregateCodec :=
  sound_container (recSound_cons (sound_bytesN _) <| recSound_cons (sound_bytesN _) recSound_nil)
    (fun _ => rfl) (fun _ => rfl)

theorem sound_bootstrap (f : Fork) : Sound (bootstrapCodec f) :=
  sound_container (recSound_cons (sound_lcHeader f) <| recSound_cons sound_syncCommittee <|
    recSound_cons (sound_hashes _) recSound_nil) (fun _ => rfl) (fun _ => rfl)

theorem sound_update (f : Fork) : Sound (updateCodec f) :=
  sound_container (recSound_cons (sound_lcHeader f) <| recSound_cons sound_syncCommittee <|
    recSound_cons (sound_hashes _) <| recSound_cons (sound_lcHeader f) <| recSound_cons (sound_hashes _) <|
    recSound_cons sound_syncAggregate <| recSound_cons sound_u64 recSound_nil)
    (fun _ => rfl) (fun _ => rfl)

theorem sound_finality (f : Fork) : Sound (finalityCodec f) :=
  sound_container (recSound_cons (sound_lcHeader f) <| recSound_cons (sound_lcHeader f) <|
    recSound_cons (sound_hashes _) <| recSound_cons sound_syncAggregate <| recSound_cons sound_u64 recSound_nil)
    (fun _ => rfl) (fun _ => rfl)

theorem sound_optimistic (f : Fork) : Sound (optimisticCodec f) :=
  sound_container (recSound_cons (sound_lcHeader f) <| recSound_cons sound_syncAggregate <|
    recSound_cons sound_u64 recSound_nil) (fun _ => rfl) (fun _ => rfl)

theorem sound_summary : Sound summaryCodec :=
  sound_container (recSound_cons sound_hash <| recSound_cons sound_hash recSound_nil)
    (fun _ => rfl) (fun _ => rfl)

theorem sound_summaries : Sound summariesCodec :=
  sound_container (recSound_cons sound_u64 <|
    recSound_cons (sound_list sound_summary (k := 64) (by decide) (by decide) _) <|
    recSound_cons (sound_hashes 6) recSound_nil) (fun _ => rfl) (fun _ => rfl)

theorem digest_length (f : Fork) : f.digest.length = 4 := by cases f <;> rfl

theorem ofDigest_digest (f : Fork) : Fork.ofDigest f.digest = some f := by cases f <;> decide

theorem digest_ofDigest {d : Bytes} {f : Fork} (h : Fork.ofDigest d = some f) : f.digest = d := by
  unfold Fork.ofDigest at h
  repeat' split at h
  all_goals first | (cases h; subst d; rfl) | cases h

theorem take_digest (f : Fork) (bs : Bytes) : (f.digest ++ bs).take 4 = f.digest := by
  rw [List.take_append_of_le_length (by rw [digest_length]; omega), List.take_of_length_le (by rw [digest_length]; omega)]
theorem drop_digest (f : Fork) (bs : Bytes) : (f.digest ++ bs).drop 4 = bs := by
  rw [List.drop_append_of_le_length (by rw [digest_length]; omega), List.drop_of_length_le (by rw [digest_length]; omega)]
  rfl

theorem decode_encodeVersioned {T : Fork → Type} {c : ∀ f, Codec (T f)} (hc : ∀ f, Sound (c f))
    (v : Versioned T) (hl : (encodeVersioned c v).length < 2 ^ 32) :
    decodeVersioned c (encodeVersioned c v) = .ok v := by
  unfold decodeVersioned encodeVersioned at *
  rw [List.length_append, digest_length] at *
  rw [if_neg (by omega), take_digest, drop_digest, ofDigest_digest]
  simp only
  rw [(hc v.1).rt v.2 (by omega)]
  rfl

theorem encode_decodeVersioned {T : Fork → Type} {c : ∀ f, Codec (T f)} (hc : ∀ f, Sound (c f))
    {bs : Bytes} {v : Versioned T} (h : decodeVersioned c bs = .ok v) : encodeVersioned c v = bs := by
  unfold decodeVersioned at h
  split at h
  · cases h
  · split at h
    · cases h
    · next f hf =>
      split at h
      · cases h
      · next x hx =>
        cases h
        unfold encodeVersioned
        rw [digest_ofDigest hf, (hc f).canon _ _ hx, List.take_append_drop]

/-- Decoding items one after the other. -/
def itemsE {α} (dec : Bytes → Except DecErr α) : List Bytes → Except DecErr (List α)
  | [] => .ok []
  | b :: bs =>
    match dec b with
    | .error e => .error e
    | .ok x =>
      match itemsE dec bs with
      | .error e => .error e
      | .ok xs => .ok (x :: xs)

theorem rangeItems_spec {α} (dec : Bytes → Except DecErr α) (bs : Bytes) (first : Nat)
    (hf : first ≤ bs.length) : ∀ (r i off : Nat), first ≤ off → 4 * (i + r) ≤ first →
    match register bs.length (List.replicate r Field.var) off (bs.drop (4 * i)) with
    | some slots => rangeItems dec bs first (r + 1) i off = itemsE dec (resolve bs (.offset off :: slots))
    | none => ∃ e, rangeItems dec bs first (r + 1) i off = .error e := by
  intro r
  induction r with
  | zero =>
    intro i off _ _
    simp only [List.replicate_zero, register, resolve, firstOffset, Option.getD_none, itemsE, rangeItems]
    rw [List.take_of_length_le (by rw [List.length_drop]; omega)]
    cases dec (bs.drop off) <;> rfl
  | succ r ih =>
    intro i off ho hi
    simp only [List.replicate_succ, register]
    rw [if_pos (by rw [List.length_drop]; omega)]
    generalize hn : fromLe ((bs.drop (4 * i)).take 4) = next
    simp only [rangeItems, hn]
    by_cases hc : next ≤ bs.length ∧ off ≤ next
    · rw [if_pos hc, if_neg (by omega)]
      have := ih (i + 1) next (by omega) (by omega)
      rw [List.drop_drop, show 4 * i + 4 = 4 * (i + 1) by omega]
      cases hr : register bs.length (List.replicate r Field.var) next (bs.drop (4 * (i + 1))) with
      | none =>
        rw [hr] at this
        obtain ⟨e, he⟩ := this
        simp only [Option.map_none, he]
        cases dec ((bs.drop off).take (next - off)) with
        | error e => exact ⟨_, rfl⟩
        | ok x => exact ⟨_, rfl⟩
      | some slots =>
        rw [hr] at this
        simp only [Option.map_some, this]
        conv => rhs; rw [resolve]
        simp only [firstOffset, Option.getD_some, itemsE]
        rfl
    · rw [if_neg hc, if_pos (by omega)]
      exact ⟨_, rfl⟩

/-- The list decoder against the one that first splits the bytes. -/
theorem decodeRange_spec {α} (dec : Bytes → Except DecErr α) (max : Nat) (bs : Bytes) :
    match decodeVarList max bs with
    | some items => decodeRange dec max bs = itemsE dec items
    | none => ∃ e, decodeRange dec max bs = .error e := by
  unfold decodeVarList decodeRange
  by_cases hb : bs = []
  · rw [if_pos hb, if_pos hb]; rfl
  rw [if_neg hb, if_neg hb]
  by_cases h4 : bs.length < 4
  · rw [if_pos h4, if_pos h4]; exact ⟨_, rfl⟩
  rw [if_neg h4, if_neg h4]
  simp only
  generalize hfirst : fromLe (bs.take 4) = first
  by_cases hm : first % 4 ≠ 0 ∨ first < 4
  · rw [if_pos hm]
    by_cases hl : bs.length < first
    · rw [if_pos hl]; exact ⟨_, rfl⟩
    · rw [if_neg hl, if_pos hm]; exact ⟨_, rfl⟩
  rw [if_neg hm]
  by_cases hx : max < first / 4
  · rw [if_pos hx]
    by_cases hl : bs.length < first
    · rw [if_pos hl]; exact ⟨_, rfl⟩
    · rw [if_neg hl, if_neg hm, if_pos hx]; exact ⟨_, rfl⟩
  rw [if_neg hx]
  obtain ⟨r, hr⟩ : ∃ r, first / 4 = r + 1 := ⟨first / 4 - 1, by omega⟩
  unfold decodeContainer
  rw [hr, headLen_replicate_var]
  simp only [List.replicate_succ, register, hfirst]
  rw [if_pos (by omega)]
  by_cases hl : bs.length < first
  · rw [if_pos hl, if_neg (by omega)]; exact ⟨_, rfl⟩
  have hx' : ¬ max < r + 1 := by omega
  have hreg : first ≤ bs.length ∧ 0 ≤ first := ⟨by omega, by omega⟩
  rw [if_neg hl, if_neg hm, if_neg hx', if_pos hreg]
  have := rangeItems_spec dec bs first (by omega) r 1 first (by omega) (by omega)
  rw [show 4 * 1 = 4 from rfl] at this
  cases hs : register bs.length (List.replicate r Field.var) first (bs.drop 4) with
  | none => rw [hs] at this; exact this
  | some slots =>
    rw [hs] at this
    simp only [Option.map_some, firstOffset]
    rw [if_pos (by omega)]
    exact this

theorem itemsE_ok {α} {dec : Bytes → Except DecErr α} {enc : α → Bytes} :
    ∀ {l : List α}, (∀ x ∈ l, dec (enc x) = .ok x) → itemsE dec (l.map enc) = .ok l
  | [], _ => rfl
  | x :: l, h => by
    simp only [List.map_cons, itemsE]
    rw [h x (by simp), itemsE_ok fun y hy => h y (by simp [hy])]

theorem itemsE_enc {α} {dec : Bytes → Except DecErr α} {enc : α → Bytes}
    (hd : ∀ b x, dec b = .ok x → enc x = b) :
    ∀ {bs : List Bytes} {l : List α}, itemsE dec bs = .ok l → l.map enc = bs
  | [], l, h => by cases h; rfl
  | b :: bs, l, h => by
    simp only [itemsE] at h
    split at h
    · cases h
    · next x hx =>
      split at h
      · cases h
      · next xs hxs =>
        cases h
        rw [List.map_cons, hd b x hx, itemsE_enc hd hxs]

theorem decode_encodeUpdates (l : BList (Versioned Update) 128)
    (hl : (encodeVarList (l.1.map (encodeVersioned updateCodec))).length < 2 ^ 32) :
    decodeUpdates (encodeVarList (l.1.map (encodeVersioned updateCodec))) = .ok l := by
  unfold decodeUpdates
  have := decodeRange_spec (decodeVersioned updateCodec) 128
    (encodeVarList (l.1.map (encodeVersioned updateCodec)))
  rw [decode_encodeVarList (by rw [List.length_map]; exact l.2) hl] at this
  simp only at this
  rw [this, itemsE_ok fun x hx => decode_encodeVersioned sound_update x
    (Nat.lt_of_le_of_lt (length_le_encodeVarList (List.mem_map_of_mem hx)) hl)]
  simp only [toBList_self, ofOption]

theorem encode_decodeUpdates {bs : Bytes} {l : BList (Versioned Update) 128} (h : decodeUpdates bs = .ok l) :
    encodeVarList (l.1.map (encodeVersioned updateCodec)) = bs := by
  unfold decodeUpdates at h
  split at h
  · cases h
  · next xs hx =>
    have := decodeRange_spec (decodeVersioned updateCodec) 128 bs
    cases hd : decodeVarList 128 bs with
    | none =>
      rw [hd] at this
      obtain ⟨e, he⟩ := this
      rw [he] at hx; cases hx
    | some items =>
      rw [hd] at this
      simp only at this
      rw [this] at hx
      have hi := itemsE_enc (enc := encodeVersioned updateCodec)
        (fun b x hb => encode_decodeVersioned sound_update hb) hx
      cases ht : toBList 128 xs with
      | none => rw [ht] at h; cases h
      | some y =>
        rw [ht] at h
        cases h
        rw [toBList_some ht, hi]
        exact (encode_decodeVarList hd).1

theorem decode_encodeSummaries (f : Fork) (s : Summaries)
    (hl : (f.digest ++ summariesCodec.enc s).length < 2 ^ 32) :
    decodeSummaries (f.digest ++ summariesCodec.enc s) = .ok (f, s) := by
  unfold decodeSummaries
  rw [List.length_append, digest_length] at *
  rw [if_neg (by omega), take_digest, drop_digest, ofDigest_digest]
  simp only
  rw [sound_summaries.rt s (by omega)]

theorem encode_decodeSummaries {bs : Bytes} {p : Fork × Summaries} (h : decodeSummaries bs = .ok p) :
    p.1.digest ++ summariesCodec.enc p.2 = bs := by
  unfold decodeSummaries at h
  split at h
  · cases h
  · split at h
    · cases h
    · next f hf =>
      split at h
      · cases h
      · next x hx =>
        cases h
        rw [digest_ofDigest hf, sound_summaries.canon _ _ hx, List.take_append_drop]

end Verif.BeaconValue
