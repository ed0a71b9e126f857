import Verif.Props.HistoryValueSpec
import Verif.Lemmas.SszTypes
import Verif.Lemmas.StateContent

/-! # Lemmas about the legacy history content values -/

namespace Verif.HistoryValue
open Verif.Ssz Verif.SszT Verif.ContentKey
open Verif.HeaderValidator (HeaderProof RootsProof CapellaProof DenebProof Net Kind decodedKind)

variable {Hd Tx Rc Wd : Type}

/-! ## Proofs -/

theorem toVector_ofVector {n : Nat} (v : Vector Id n) : toVector (ofVector v) = v := by
  apply Vector.toArray_inj.mp
  simp [toVector, ofVector, Vector.toList]
theorem ofVector_toVector {n : Nat} (v : Vec Id n) : ofVector (toVector v) = v := by
  apply Subtype.ext; simp [toVector, ofVector]

theorem sound_hashes (n : Nat) : Sound (vector hash n) := sound_vector sound_hash rfl n

theorem sound_roots : Sound rootsCodec :=
  sound_container (recSound_cons (sound_hashes 14) (recSound_cons sound_hash
    (recSound_cons (sound_hashes 11) (recSound_cons sound_u64 recSound_nil))))
    (fun y => by cases y; simp [toVector_ofVector])
    (fun x => by obtain ⟨a, b, c, d, _⟩ := x; simp [ofVector_toVector])
theorem sound_capella : Sound capellaCodec :=
  sound_container (recSound_cons (sound_hashes 13) (recSound_cons sound_hash
    (recSound_cons (sound_hashes 11) (recSound_cons sound_u64 recSound_nil))))
    (fun y => by cases y; simp [toVector_ofVector])
    (fun x => by obtain ⟨a, b, c, d, _⟩ := x; simp [ofVector_toVector])
theorem sound_deneb : Sound denebCodec :=
  sound_container (recSound_cons (sound_hashes 13) (recSound_cons sound_hash
    (recSound_cons (sound_hashes 12) (recSound_cons sound_u64 recSound_nil))))
    (fun y => by cases y; simp [toVector_ofVector])
    (fun x => by obtain ⟨a, b, c, d, _⟩ := x; simp [ofVector_toVector])

theorem proof_length (p : HeaderProof) : (encodeProof p).length ≤ 840 := by
  cases p with
  | hashes p => rw [encodeProof, (sound_hashes 15).fixed _ 480 rfl]; decide
  | roots p => rw [encodeProof, sound_roots.fixed _ 840 rfl]; decide
  | capella p => rw [encodeProof, sound_capella.fixed _ 808 rfl]; decide
  | deneb p => rw [encodeProof, sound_deneb.fixed _ 840 rfl]; decide

theorem decodeProof_encode (p : HeaderProof) : decodeProof p.kind (encodeProof p) = some p := by
  have hl := proof_length p
  unfold decodeProof
  rw [if_pos (by omega)]
  cases p with
  | hashes p =>
    simp only [HeaderValidator.HeaderProof.kind, encodeProof] at hl ⊢
    rw [(sound_hashes 15).rt _ (by omega)]
    simp [toVector_ofVector]
  | roots p =>
    simp only [HeaderValidator.HeaderProof.kind, encodeProof] at hl ⊢
    rw [sound_roots.rt _ (by omega)]; rfl
  | capella p =>
    simp only [HeaderValidator.HeaderProof.kind, encodeProof] at hl ⊢
    rw [sound_capella.rt _ (by omega)]; rfl
  | deneb p =>
    simp only [HeaderValidator.HeaderProof.kind, encodeProof] at hl ⊢
    rw [sound_deneb.rt _ (by omega)]; rfl

theorem decodeProof_inv {k : Kind} {bs : Bytes} {p : HeaderProof} (h : decodeProof k bs = some p) :
    p.kind = k ∧ encodeProof p = bs := by
  unfold decodeProof at h
  split at h
  · cases k <;> simp only [Option.map_eq_some_iff] at h <;> obtain ⟨q, hq, rfl⟩ := h
    · refine ⟨rfl, ?_⟩
      rw [encodeProof, ofVector_toVector]
      exact (sound_hashes 15).canon _ _ hq
    · exact ⟨rfl, sound_roots.canon _ _ hq⟩
    · exact ⟨rfl, sound_capella.canon _ _ hq⟩
    · exact ⟨rfl, sound_deneb.canon _ _ hq⟩
  · cases h

/-! ## Lengths -/

theorem Shortest.refl (b : Bytes) : Shortest b b := ⟨Nat.le_refl _, fun _ => rfl⟩

theorem Shortest.of_prefix {e b : Bytes} (h : e <+: b) : Shortest e b :=
  ⟨h.length_le, fun hl => h.eq_of_length hl⟩

theorem container1_length (a : Bytes) : (encodeContainer [.var] [a]).length = 4 + a.length := by
  simp [encodeContainer, fixedPart, varPart, headLen, Field.headLen]
theorem container2_length (a b : Bytes) :
    (encodeContainer [.var, .var] [a, b]).length = 8 + a.length + b.length := by
  simp [encodeContainer, fixedPart, varPart, headLen, Field.headLen]; omega
theorem container3_length (a b c : Bytes) :
    (encodeContainer [.var, .var, .var] [a, b, c]).length = 12 + a.length + b.length + c.length := by
  simp [encodeContainer, fixedPart, varPart, headLen, Field.headLen]; omega

theorem Shortest.container1 {a a' : Bytes} (h : Shortest a a') :
    Shortest (encodeContainer [.var] [a]) (encodeContainer [.var] [a']) := by
  refine ⟨by rw [container1_length, container1_length]; have := h.1; omega, fun hl => ?_⟩
  rw [container1_length, container1_length] at hl
  rw [h.2 (by omega)]

theorem Shortest.container2 {a a' b b' : Bytes} (h : Shortest a a') (g : Shortest b b') :
    Shortest (encodeContainer [.var, .var] [a, b]) (encodeContainer [.var, .var] [a', b']) := by
  have h1 := h.1
  have h2 := g.1
  refine ⟨by rw [container2_length, container2_length]; omega, fun hl => ?_⟩
  rw [container2_length, container2_length] at hl
  rw [h.2 (by omega), g.2 (by omega)]

theorem Shortest.container3 {a a' b b' c c' : Bytes} (h : Shortest a a') (g : Shortest b b')
    (k : Shortest c c') :
    Shortest (encodeContainer [.var, .var, .var] [a, b, c]) (encodeContainer [.var, .var, .var] [a', b', c']) := by
  have h1 := h.1
  have h2 := g.1
  have h3 := k.1
  refine ⟨by rw [container3_length, container3_length]; omega, fun hl => ?_⟩
  rw [container3_length, container3_length] at hl
  rw [h.2 (by omega), g.2 (by omega), k.2 (by omega)]

/-! ## Items -/

theorem decodeItems_extra {α : Type} {w : Wire α} (hw : w.Faithful) : ∀ l : List (α × Bytes),
    decodeItems w (l.map fun x => w.enc x.1 ++ x.2) = some (l.map Prod.fst)
  | [] => rfl
  | x :: l => by
    simp only [List.map_cons, decodeItems]
    rw [hw.reads, decodeItems_extra hw l]
    rfl

theorem decodeItems_enc {α : Type} {w : Wire α} (hw : w.Faithful) : ∀ l : List α,
    decodeItems w (l.map w.enc) = some l
  | [] => rfl
  | x :: l => by
    simp only [List.map_cons, decodeItems]
    have := hw.reads x []
    rw [List.append_nil] at this
    rw [this, decodeItems_enc hw l]
    rfl

theorem decodeItems_inv {α : Type} {w : Wire α} (hw : w.Faithful) : ∀ {bs : List Bytes} {l : List α},
    decodeItems w bs = some l → l.length = bs.length ∧
      ((l.map w.enc).map List.length).sum ≤ (bs.map List.length).sum ∧
      (((l.map w.enc).map List.length).sum = (bs.map List.length).sum → l.map w.enc = bs)
  | [], l, h => by cases h; exact ⟨rfl, Nat.le_refl _, fun _ => rfl⟩
  | b :: bs, l, h => by
    simp only [decodeItems] at h
    split at h
    · cases h
    · next x hx =>
      obtain ⟨l', hl, rfl⟩ := Option.map_eq_some_iff.mp h
      obtain ⟨h1, h2, h3⟩ := decodeItems_inv hw hl
      have hp := hw.only b x hx
      have := hp.length_le
      simp only [List.length_cons, List.map_cons, List.sum_cons]
      refine ⟨by omega, by omega, fun he => ?_⟩
      rw [hp.eq_of_length (by omega), h3 (by omega)]

theorem items_shortest {α : Type} {w : Wire α} (hw : w.Faithful) {bs : List Bytes} {l : List α}
    (h : decodeItems w bs = some l) : Shortest (encodeVarList (l.map w.enc)) (encodeVarList bs) := by
  obtain ⟨h1, h2, h3⟩ := decodeItems_inv hw h
  constructor
  · rw [encodeVarList_length, encodeVarList_length, List.length_map]; omega
  · intro he
    rw [encodeVarList_length, encodeVarList_length, List.length_map] at he
    rw [h3 (by omega)]

theorem vec_shortest {α : Type} {w : Wire α} (hw : w.Faithful) {bs : Bytes} {l : List α}
    (h : (decodeVec bs).bind (decodeItems w) = some l) : Shortest (encodeVarList (l.map w.enc)) bs := by
  obtain ⟨vs, hv, hl⟩ := Option.bind_eq_some_iff.mp h
  have := items_shortest hw hl
  rwa [(encode_decodeVarList hv).1] at this

theorem decodeVec_encode {vs : List Bytes} (h : (encodeVarList vs).length < 2 ^ 32) :
    decodeVec (encodeVarList vs) = some vs :=
  decode_encodeVarList (by rw [encodeVarList_length]; omega) h

/-! ## Headers -/

theorem decodeHeader_extra {lib : Lib Hd Tx Rc Wd} (hl : lib.Faithful) {h : Hd} {extra : Bytes}
    (hlen : (lib.header.enc h ++ extra).length ≤ 2048) :
    decodeHeader lib (lib.header.enc h ++ extra) = some h := by
  unfold decodeHeader
  rw [if_pos hlen, hl.header.reads]

theorem decodeHeader_enc {lib : Lib Hd Tx Rc Wd} (hl : lib.Faithful) {h : Hd}
    (hlen : (lib.header.enc h).length ≤ 2048) : decodeHeader lib (lib.header.enc h) = some h := by
  have := decodeHeader_extra hl (h := h) (extra := []) (by simpa using hlen)
  simpa using this

theorem encodeHeader_eq {lib : Lib Hd Tx Rc Wd} {h : Hd} (hlen : (lib.header.enc h).length ≤ 2048) :
    encodeHeader lib h = lib.header.enc h := List.take_of_length_le hlen

theorem decodeHeader_inv {lib : Lib Hd Tx Rc Wd} (hl : lib.Faithful) {bs : Bytes} {h : Hd}
    (hd : decodeHeader lib bs = some h) :
    (lib.header.enc h).length ≤ 2048 ∧ Shortest (encodeHeader lib h) bs := by
  unfold decodeHeader at hd
  split at hd
  · next hb =>
    have hp := hl.header.only _ _ hd
    have hlen : (lib.header.enc h).length ≤ 2048 := Nat.le_trans hp.length_le hb
    exact ⟨hlen, by rw [encodeHeader_eq hlen]; exact .of_prefix hp⟩
  · cases hd

theorem decodeHeaders_enc {lib : Lib Hd Tx Rc Wd} (hl : lib.Faithful) : ∀ {hs : List Hd},
    (∀ h ∈ hs, (lib.header.enc h).length ≤ 2048) → decodeHeaders lib (hs.map lib.header.enc) = some hs
  | [], _ => rfl
  | h :: hs, hlen => by
    simp only [List.map_cons, decodeHeaders]
    rw [decodeHeader_enc hl (hlen h (by simp)), decodeHeaders_enc hl fun x hx => hlen x (by simp [hx])]
    rfl

theorem decodeHeaders_inv {lib : Lib Hd Tx Rc Wd} (hl : lib.Faithful) : ∀ {bs : List Bytes} {hs : List Hd},
    decodeHeaders lib bs = some hs → (∀ h ∈ hs, (lib.header.enc h).length ≤ 2048) ∧
      decodeItems lib.header bs = some hs
  | [], hs, h => by cases h; exact ⟨by simp, rfl⟩
  | b :: bs, hs, h => by
    simp only [decodeHeaders] at h
    split at h
    · cases h
    · next x hx =>
      obtain ⟨l', hl', rfl⟩ := Option.map_eq_some_iff.mp h
      obtain ⟨h1, h2⟩ := decodeHeaders_inv hl hl'
      refine ⟨?_, ?_⟩
      · intro y hy
        rcases List.mem_cons.mp hy with rfl | hy
        · exact (decodeHeader_inv hl hx).1
        · exact h1 y hy
      · unfold decodeHeader at hx
        split at hx
        · simp [decodeItems, hx, h2]
        · cases hx

/-! ## Whole values -/

theorem hwp_extra {lib : Lib Hd Tx Rc Wd} (hl : lib.Faithful) {net : Net} {h : Hd} {p : HeaderProof}
    {extra : Bytes} (hlen : (lib.header.enc h ++ extra).length ≤ 2048)
    (hk : p.kind = decodedKind net (lib.hdr h)) :
    decodeHeaderWithProof lib net (encodeContainer [.var, .var] [lib.header.enc h ++ extra, encodeProof p]) =
      some (h, p) := by
  have := proof_length p
  unfold decodeHeaderWithProof
  rw [decode_encodeContainer (by simp [Fits]) (by rw [container2_length]; omega)]
  simp only [decodeHeader_extra hl hlen, ← hk, decodeProof_encode, Option.map_some]

theorem hwp_encode {lib : Lib Hd Tx Rc Wd} (hl : lib.Faithful) {net : Net} {h : Hd} {p : HeaderProof}
    (hlen : (lib.header.enc h).length ≤ 2048) (hk : p.kind = decodedKind net (lib.hdr h)) :
    decodeHeaderWithProof lib net (encodeHeaderWithProof lib h p) = some (h, p) := by
  have := hwp_extra (p := p) hl (net := net) (h := h) (extra := []) (by simpa using hlen) hk
  rw [List.append_nil] at this
  rw [encodeHeaderWithProof, encodeHeader_eq hlen, this]

theorem hwp_inv {lib : Lib Hd Tx Rc Wd} (hl : lib.Faithful) {net : Net} {bs : Bytes} {h : Hd}
    {p : HeaderProof} (hd : decodeHeaderWithProof lib net bs = some (h, p)) :
    (lib.header.enc h).length ≤ 2048 ∧ p.kind = decodedKind net (lib.hdr h) ∧
      Shortest (encodeHeaderWithProof lib h p) bs := by
  unfold decodeHeaderWithProof at hd
  split at hd
  · next hb pb hc =>
    split at hd
    · cases hd
    · next h' hh =>
      obtain ⟨p', hp, he⟩ := Option.map_eq_some_iff.mp hd
      cases he
      obtain ⟨h1, h2⟩ := decodeHeader_inv hl hh
      obtain ⟨h3, h4⟩ := decodeProof_inv hp
      refine ⟨h1, h3, ?_⟩
      rw [← (encode_decodeContainer hc).2, encodeHeaderWithProof, h4]
      exact h2.container2 (.refl _)
  · cases hd

theorem first_offset2 (a b : Bytes) : fromLe ((encodeContainer [.var, .var] [a, b]).take 4) = 8 := by
  have e : encodeContainer [.var, .var] [a, b] = toLe 4 8 ++ (toLe 4 (8 + a.length) ++ a ++ b) := by
    simp [encodeContainer, fixedPart, varPart, headLen, Field.headLen]
  rw [e, List.take_left' (by simp)]
  exact fromLe_toLe_of_lt (by decide)
theorem first_offset3 (a b c : Bytes) : fromLe ((encodeContainer [.var, .var, .var] [a, b, c]).take 4) = 12 := by
  have e : encodeContainer [.var, .var, .var] [a, b, c] =
      toLe 4 12 ++ (toLe 4 (12 + a.length) ++ toLe 4 (12 + a.length + b.length) ++ a ++ b ++ c) := by
    simp [encodeContainer, fixedPart, varPart, headLen, Field.headLen]
  rw [e, List.take_left' (by simp)]
  exact fromLe_toLe_of_lt (by decide)

/-- A body after Shanghai is not read as one before. -/
theorem pre_of_three (lib : Lib Hd Tx Rc Wd) (a b c : Bytes) :
    decodeBodyPre lib (encodeContainer [.var, .var, .var] [a, b, c]) = none := by
  unfold decodeBodyPre
  split
  · next t o hd =>
    have h1 := (encode_decodeContainer hd).2
    have h2 := first_offset3 a b c
    rw [← h1, first_offset2] at h2
    exact absurd h2 (by decide)
  · rfl

theorem body_pre_extra {lib : Lib Hd Tx Rc Wd} (hl : lib.Faithful) (txs : List (Tx × Bytes)) (os : List Hd)
    (extra : Bytes) (hlen : (encodeContainer [.var, .var] [encodeVarList (txs.map fun x => lib.tx.enc x.1 ++ x.2),
      lib.ommers.enc os ++ extra]).length < 2 ^ 32) :
    decodeBody lib (encodeContainer [.var, .var] [encodeVarList (txs.map fun x => lib.tx.enc x.1 ++ x.2),
      lib.ommers.enc os ++ extra]) = some ⟨txs.map Prod.fst, os, none⟩ := by
  have hlen' := hlen
  rw [container2_length] at hlen'
  unfold decodeBody decodeBodyPre
  rw [decode_encodeContainer (by simp [Fits]) hlen]
  have hv := decodeVec_encode (vs := txs.map fun x => lib.tx.enc x.1 ++ x.2) (by omega)
  simp only [hv, Option.bind_some, decodeItems_extra hl.tx,
    hl.ommers.reads, Option.some_or]

theorem body_encode {lib : Lib Hd Tx Rc Wd} (hl : lib.Faithful) (b : Body Hd Tx Wd)
    (ho : b.withdrawals ≠ none → b.ommers = []) (hlen : (encodeBody lib b).length < 2 ^ 32) :
    decodeBody lib (encodeBody lib b) = some b := by
  obtain ⟨txs, os, ws⟩ := b
  cases ws with
  | none =>
    simp only [encodeBody] at hlen ⊢
    have := body_pre_extra (Wd := Wd) hl (txs.map fun t => (t, [])) os []
    simp only [List.append_nil, List.map_map, Function.comp_def] at this
    have e : (txs.map fun x => lib.tx.enc x) = txs.map lib.tx.enc := rfl
    rw [e] at this
    simpa using this hlen
  | some ws =>
    have hos : os = [] := ho (by simp)
    subst hos
    simp only [encodeBody] at hlen ⊢
    have hlen' := hlen
    rw [container3_length] at hlen'
    unfold decodeBody
    rw [pre_of_three, Option.none_or, decodeBodyPost, decode_encodeContainer (by simp [Fits]) hlen]
    have ho := hl.ommers.reads [] []
    rw [List.append_nil] at ho
    simp only [decodeVec_encode (show (encodeVarList (txs.map lib.tx.enc)).length < 2 ^ 32 by omega),
      decodeVec_encode (show (encodeVarList (ws.map lib.withdrawal.enc)).length < 2 ^ 32 by omega),
      Option.bind_some, decodeItems_enc hl.tx, decodeItems_enc hl.withdrawal, ho]

theorem body_inv {lib : Lib Hd Tx Rc Wd} (hl : lib.Faithful) {bs : Bytes} {b : Body Hd Tx Wd}
    (hd : decodeBody lib bs = some b) :
    (b.withdrawals ≠ none → b.ommers = []) ∧ Shortest (encodeBody lib b) bs := by
  unfold decodeBody at hd
  cases hp : decodeBodyPre lib bs with
  | some b' =>
    rw [hp, Option.some_or] at hd
    cases hd
    unfold decodeBodyPre at hp
    split at hp
    · next t o hc =>
      split at hp
      · next txs os ht ho =>
        cases hp
        refine ⟨fun h => absurd rfl h, ?_⟩
        rw [← (encode_decodeContainer hc).2]
        exact (vec_shortest hl.tx ht).container2 (.of_prefix (hl.ommers.only _ _ ho))
      · cases hp
    · cases hp
  | none =>
    rw [hp, Option.none_or] at hd
    unfold decodeBodyPost at hd
    split at hd
    · next t o w hc =>
      split at hd
      · next txs ws ht ho hw =>
        cases hd
        refine ⟨fun _ => rfl, ?_⟩
        rw [← (encode_decodeContainer hc).2]
        exact (vec_shortest hl.tx ht).container3 (.of_prefix (hl.ommers.only _ _ ho))
          (vec_shortest hl.withdrawal hw)
      · cases hd
    · cases hd

end Verif.HistoryValue
