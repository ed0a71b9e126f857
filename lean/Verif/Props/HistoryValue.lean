import Verif.Lemmas.HistoryValue

/-! # C57: legacy history content values -/

namespace Verif.Props
open Verif Verif.Ssz Verif.SszT Verif.ContentKey Verif.HistoryValue
open Verif.HeaderValidator (HeaderProof Net Kind decodedKind)

variable {Hd Tx Rc Wd : Type} {lib : Lib Hd Tx Rc Wd} {net : Net} {key : Legacy} {v : Value Hd Tx Rc Wd}

/-- Encoding a value that belongs to a key does not panic. -/
theorem C57_encodes (h : Belongs lib net key v) : ∃ b, v.encode lib = some b := by
  cases h with
  | ephemeralHeaders hash n hs hlen =>
    refine ⟨encodeVarList (hs.1.map lib.header.enc), ?_⟩
    unfold Value.encode encodeEphemeral
    exact if_pos (by simpa using hlen)
  | _ => exact ⟨_, rfl⟩

/-- A value that belongs to a key is read back under that key. -/
theorem C57_round_trip (hl : lib.Faithful) (h : Belongs lib net key v) {b : Bytes}
    (he : v.encode lib = some b) (hlen : b.length < 2 ^ 32) : Value.decode lib net key b = some v := by
  cases h with
  | byHash hash h p h1 h2 =>
    obtain rfl := Option.some.inj he
    simp [Value.decode, hwp_encode hl h1 h2]
  | byNumber n h p h1 h2 =>
    obtain rfl := Option.some.inj he
    simp [Value.decode, hwp_encode hl h1 h2]
  | body hash x h1 =>
    obtain rfl := Option.some.inj he
    simp [Value.decode, body_encode hl x h1 hlen]
  | receipts hash rs h1 =>
    obtain rfl := Option.some.inj he
    have : decodeReceipts lib (encodeReceipts lib rs) = some rs := by
      unfold decodeReceipts encodeReceipts
      rw [decode_encodeVarList (by simpa using h1) hlen, Option.bind_some, decodeItems_enc hl.receipt]
    simp [Value.decode, this]
  | ephemeralHeaders hash n hs h1 =>
    have h2 : encodeEphemeral lib hs = some (encodeVarList (hs.1.map lib.header.enc)) :=
      if_pos (by simpa using h1)
    have h3 : encodeEphemeral lib hs = some b := he
    rw [h2] at h3
    obtain rfl := Option.some.inj h3
    have : decodeEphemeral lib (encodeVarList (hs.1.map lib.header.enc)) = some hs := by
      unfold decodeEphemeral
      rw [decode_encodeVarList (by simpa using hs.2) hlen, Option.bind_some, decodeHeaders_enc hl h1,
        Option.bind_some, toBList_self]
    simp [Value.decode, this]
  | ephemeralOffer hash h h1 =>
    obtain rfl := Option.some.inj he
    have : decodeOffer lib (encodeContainer [.var] [encodeHeader lib h]) = some h := by
      unfold decodeOffer
      rw [decode_encodeContainer (by simp [Fits]) hlen]
      simp only [encodeHeader_eq h1, decodeHeader_enc hl h1]
    simp [Value.decode, this]

/-- Whatever is decoded belongs to the key, and no bytes for it are shorter than its encoding, nor any other
bytes as short.
Missing: that the bytes are the encoding, see the three `canonical_violated` theorems. -/
theorem C57_decode_partial (hl : lib.Faithful) {b : Bytes} (h : Value.decode lib net key b = some v) :
    Belongs lib net key v ∧ ∃ e, v.encode lib = some e ∧ Shortest e b := by
  cases key with
  | headerByHash hash =>
    obtain ⟨⟨h, p⟩, hd, rfl⟩ := Option.map_eq_some_iff.mp h
    obtain ⟨h1, h2, h3⟩ := hwp_inv hl hd
    exact ⟨.byHash _ _ _ h1 h2, _, rfl, h3⟩
  | headerByNumber n =>
    obtain ⟨⟨h, p⟩, hd, rfl⟩ := Option.map_eq_some_iff.mp h
    obtain ⟨h1, h2, h3⟩ := hwp_inv hl hd
    exact ⟨.byNumber _ _ _ h1 h2, _, rfl, h3⟩
  | blockBody hash =>
    obtain ⟨x, hd, rfl⟩ := Option.map_eq_some_iff.mp h
    obtain ⟨h1, h2⟩ := body_inv hl hd
    exact ⟨.body _ _ h1, _, rfl, h2⟩
  | blockReceipts hash =>
    obtain ⟨rs, hd, rfl⟩ := Option.map_eq_some_iff.mp h
    obtain ⟨vs, hv, hi⟩ := Option.bind_eq_some_iff.mp hd
    obtain ⟨h1, h2⟩ := encode_decodeVarList hv
    have h3 := items_shortest hl.receipt hi
    rw [h1] at h3
    exact ⟨.receipts _ _ (by rw [(decodeItems_inv hl.receipt hi).1]; exact h2), _, rfl, h3⟩
  | ephemeralFind hash n =>
    obtain ⟨hs, hd, rfl⟩ := Option.map_eq_some_iff.mp h
    obtain ⟨l, hd, ht⟩ := Option.bind_eq_some_iff.mp hd
    obtain ⟨vs, hv, hi⟩ := Option.bind_eq_some_iff.mp hd
    obtain ⟨h1, h2⟩ := encode_decodeVarList hv
    obtain ⟨h3, h4⟩ := decodeHeaders_inv hl hi
    have h5 := items_shortest hl.header h4
    rw [h1] at h5
    have ht := toBList_some ht
    subst ht
    exact ⟨.ephemeralHeaders _ _ _ h3, _, if_pos (by simpa using h3), h5⟩
  | ephemeralOffer hash =>
    obtain ⟨x, hd, rfl⟩ := Option.map_eq_some_iff.mp h
    unfold decodeOffer at hd
    split at hd
    · next hb hc =>
      obtain ⟨h1, h2⟩ := decodeHeader_inv hl hd
      refine ⟨.ephemeralOffer _ _ h1, _, rfl, ?_⟩
      rw [← (encode_decodeContainer hc).2]
      exact h2.container1
    · cases hd

/-- No two values of a key have the same encoding. -/
theorem C57_unambiguous (hl : lib.Faithful) {w : Value Hd Tx Rc Wd} (hv : Belongs lib net key v)
    (hw : Belongs lib net key w) {b : Bytes} (hlen : b.length < 2 ^ 32) (h1 : v.encode lib = some b)
    (h2 : w.encode lib = some b) : v = w := by
  have e := C57_round_trip hl hv h1 hlen
  rw [C57_round_trip hl hw h2 hlen] at e
  exact (Option.some.inj e).symm

/-- A header of more than 2048 bytes is encoded, with its end cut off, to bytes that are read as nothing. -/
theorem C57_oversized (hl : lib.Faithful) (hash : Id) (h : Hd) (p : HeaderProof)
    (hlen : 2048 < (lib.header.enc h).length) :
    ∃ b, (Value.header h p : Value Hd Tx Rc Wd).encode lib = some b ∧
      Value.decode lib net (.headerByHash hash) b = none := by
  refine ⟨_, rfl, ?_⟩
  have hp := proof_length p
  have ht : (encodeHeader lib h).length = 2048 := by
    unfold encodeHeader
    rw [List.length_take]
    omega
  simp only [Value.decode, Option.map_eq_none_iff]
  unfold decodeHeaderWithProof encodeHeaderWithProof
  rw [decode_encodeContainer (by simp [Fits]) (by rw [container2_length]; omega)]
  have : decodeHeader lib (encodeHeader lib h) = none := by
    unfold decodeHeader
    rw [if_pos (by omega)]
    cases hd : lib.header.dec (encodeHeader lib h) with
    | none => rfl
    | some h' =>
      have h1 := hl.header.only _ _ hd
      have h2 : lib.header.enc h' <+: lib.header.enc h := h1.trans (List.take_prefix _ _)
      obtain ⟨rest, hr⟩ := h2
      have h3 := hl.header.reads h' rest
      have h4 := hl.header.reads h []
      rw [List.append_nil, ← hr, h3] at h4
      obtain rfl := Option.some.inj h4
      have := h1.length_le
      omega
  simp only [this]

/-- Uncles of a body with withdrawals are lost: what is read back is the body without them. -/
theorem C57_uncles_lost (hl : lib.Faithful) (hash : Id) (txs : List Tx) (os : List Hd) (ws : List Wd)
    {b : Bytes} (he : (Value.body ⟨txs, os, some ws⟩ : Value Hd Tx Rc Wd).encode lib = some b)
    (hlen : b.length < 2 ^ 32) :
    Value.decode lib net (.blockBody hash) b = some (.body ⟨txs, [], some ws⟩) :=
  C57_round_trip hl (.body hash ⟨txs, [], some ws⟩ fun _ => rfl) (by rw [← he]; rfl) hlen

/-- Content values are **not** canonical. Bytes after the RLP of a header are ignored, so every value with a
header of fewer than 2048 bytes is also read from other bytes than its encoding, under both header keys. -/
theorem C57_header_canonical_violated (hl : lib.Faithful) (h : Hd) (p : HeaderProof)
    (hlen : (lib.header.enc h).length < 2048) (hk : p.kind = decodedKind net (lib.hdr h)) :
    ∃ b, some b ≠ (Value.header h p : Value Hd Tx Rc Wd).encode lib ∧
      (∀ hash, Value.decode lib net (.headerByHash hash) b = some (.header h p)) ∧
      ∀ n, Value.decode lib net (.headerByNumber n) b = some (.header h p) := by
  have hd := hwp_extra (p := p) hl (net := net) (h := h) (extra := [0]) (by simp; omega) hk
  refine ⟨encodeContainer [.var, .var] [lib.header.enc h ++ [0], encodeProof p], ?_,
    fun _ => by simp only [Value.decode, hd, Option.map_some],
    fun _ => by simp only [Value.decode, hd, Option.map_some]⟩
  intro he
  have he := congrArg List.length (Option.some.inj he)
  rw [encodeHeaderWithProof, container2_length, container2_length, encodeHeader_eq (by omega)] at he
  simp at he

/-- The same for bodies, after the uncles and after each transaction, … -/
theorem C57_body_canonical_violated (hl : lib.Faithful) (hash : Id) (txs : List (Tx × Bytes)) (os : List Hd)
    (extra : Bytes) :
    let b := encodeContainer [.var, .var] [encodeVarList (txs.map fun x => lib.tx.enc x.1 ++ x.2),
      lib.ommers.enc os ++ extra]
    let v : Value Hd Tx Rc Wd := .body ⟨txs.map Prod.fst, os, none⟩
    b.length < 2 ^ 32 →
      Value.decode lib net (.blockBody hash) b = some v ∧ (extra ≠ [] → some b ≠ v.encode lib) := by
  intro b v hb
  refine ⟨by simp only [v, b, Value.decode, body_pre_extra hl txs os extra hb, Option.map_some], ?_⟩
  intro hne he
  have he := Option.some.inj he
  have h2 : decodeContainer [.var, .var] b = some [encodeVarList (txs.map fun x => lib.tx.enc x.1 ++ x.2),
      lib.ommers.enc os ++ extra] := decode_encodeContainer (by simp [Fits]) hb
  have h3 : decodeContainer [.var, .var] b = some [encodeVarList ((txs.map Prod.fst).map lib.tx.enc),
      lib.ommers.enc os] := by
    rw [he] at hb ⊢
    exact decode_encodeContainer (by simp [Fits]) hb
  rw [h2] at h3
  have h4 := List.cons.inj (List.cons.inj (Option.some.inj h3)).2
  exact hne (List.append_cancel_left (h4.1.trans (List.append_nil _).symm))

/-- … and for receipts, after each receipt. -/
theorem C57_receipts_canonical_violated (hl : lib.Faithful) (hash : Id) (rs : List (Rc × Bytes))
    (hn : rs.length ≤ 16384) :
    let b := encodeVarList (rs.map fun x => lib.receipt.enc x.1 ++ x.2)
    let v : Value Hd Tx Rc Wd := .receipts (rs.map Prod.fst)
    b.length < 2 ^ 32 →
      Value.decode lib net (.blockReceipts hash) b = some v ∧
        ((∃ x ∈ rs, x.2 ≠ []) → some b ≠ v.encode lib) := by
  intro b v hb
  have hd : decodeVarList 16384 b = some (rs.map fun x => lib.receipt.enc x.1 ++ x.2) :=
    decode_encodeVarList (by simpa using hn) hb
  refine ⟨?_, ?_⟩
  · simp only [v, b, Value.decode, decodeReceipts]
    rw [hd, Option.bind_some, decodeItems_extra hl.receipt, Option.map_some]
  · rintro ⟨x, hx, hne⟩ he
    have he : b = encodeVarList ((rs.map Prod.fst).map lib.receipt.enc) := Option.some.inj he
    have h3 : decodeVarList 16384 b = some ((rs.map Prod.fst).map lib.receipt.enc) := by
      rw [he] at hb ⊢
      exact decode_encodeVarList (by simpa using hn) hb
    rw [hd, List.map_map] at h3
    have h4 := List.map_inj_left.mp (Option.some.inj h3) x hx
    exact hne (List.append_cancel_left (h4.trans (List.append_nil _).symm))

end Verif.Props

/-! ## A concrete case: one byte values -/

namespace Verif.HistoryExample
open Verif Verif.Ssz Verif.ContentKey Verif.HistoryValue
open Verif.HeaderValidator (HeaderProof Net)

def byte : Wire UInt8 := ⟨fun x => [x], fun b => b.head?⟩

theorem byte_faithful : byte.Faithful where
  reads _ _ := rfl
  only b x h := by
    cases b with
    | nil => cases h
    | cons y b => obtain rfl := Option.some.inj h; exact ⟨b, rfl⟩

/-- Each item after a 1, then a 0. -/
def encList : List UInt8 → Bytes
  | [] => [0]
  | x :: l => 1 :: x :: encList l
def decList : Bytes → Option (List UInt8)
  | 0 :: _ => some []
  | 1 :: x :: b => (decList b).map (x :: ·)
  | _ => none

theorem list_faithful : (⟨encList, decList⟩ : Wire (List UInt8)).Faithful where
  reads l rest := by
    show decList (encList l ++ rest) = some l
    induction l with
    | nil => rfl
    | cons x l ih => simp [encList, decList, ih]
  only b := by
    show ∀ l, decList b = some l → encList l <+: b
    fun_induction decList b with
    | case1 b => intro l h; cases h; exact ⟨b, rfl⟩
    | case2 x b ih =>
      intro l h
      obtain ⟨l', h', rfl⟩ := Option.map_eq_some_iff.mp h
      obtain ⟨r, hr⟩ := ih l' h'
      exact ⟨r, by simp [encList, hr]⟩
    | case3 => intro l h; cases h

/-- Headers are bytes: the number and the timestamp are that byte; those from 20 on have withdrawals. -/
def lib : Lib UInt8 UInt8 UInt8 UInt8 where
  header := byte
  ommers := ⟨encList, decList⟩
  tx := byte
  receipt := byte
  withdrawal := byte
  view x := ⟨x.toNat.toUInt64, x.toNat.toUInt64, BitVec.ofNat 256 1, BitVec.ofNat 256 x.toNat, BitVec.ofNat 256 x.toNat,
    if x < 20 then none else some (BitVec.ofNat 256 x.toNat)⟩
  keccak b := BitVec.ofNat 256 b.length
  trieRoot l := BitVec.ofNat 256 (l.map fromLe).sum

theorem lib_faithful : lib.Faithful := ⟨byte_faithful, list_faithful, byte_faithful, byte_faithful, byte_faithful⟩

def net : Net := ⟨10, 20, 30⟩

def roots : HeaderProof := .roots ⟨Vector.replicate 14 (BitVec.ofNat 256 3), BitVec.ofNat 256 4, Vector.replicate 11 (BitVec.ofNat 256 5), 6⟩
def deneb : HeaderProof := .deneb ⟨Vector.replicate 13 (BitVec.ofNat 256 3), BitVec.ofNat 256 4, Vector.replicate 12 (BitVec.ofNat 256 5), 6⟩

/-- A header after the merge, with its proof, belongs to its keys; with another proof it does not. -/
example : Belongs lib net (.headerByNumber 12) (.header 12 roots) :=
  .byNumber _ _ _ (by decide) (by decide)
example : Belongs lib net (.headerByHash 0) (.header 33 deneb) := .byHash _ _ _ (by decide) (by decide)
example : ¬ Belongs lib net (.headerByHash 0) (.header 12 deneb) := by
  intro h; cases h with | byHash _ _ _ _ h => exact absurd h (by decide)
example : Belongs lib net (.blockBody 0) (.body ⟨[1, 2], [], some [7]⟩) := .body _ _ fun _ => rfl
example : Belongs lib net (.blockBody 0) (.body ⟨[1, 2], [5], none⟩) := .body _ _ fun h => absurd rfl h
example : Belongs lib net (.ephemeralFind 0 1) (.ephemeralHeaders ⟨[1, 2], by decide⟩) :=
  .ephemeralHeaders _ _ _ (by decide)

/-- The bytes of a body, and others that are read as the same body. -/
example : (Value.body ⟨[1, 2], [5], none⟩ : Value UInt8 UInt8 UInt8 UInt8).encode lib =
    some [8, 0, 0, 0, 18, 0, 0, 0, 8, 0, 0, 0, 9, 0, 0, 0, 1, 2, 1, 5, 0] := by decide
example : Value.decode lib net (.blockBody 0)
    [8, 0, 0, 0, 19, 0, 0, 0, 8, 0, 0, 0, 10, 0, 0, 0, 1, 99, 2, 1, 5, 0, 77, 78] =
      some (.body ⟨[1, 2], [5], none⟩) := by rfl
/-- A body with withdrawals and uncles is not read. -/
example : Value.decode lib net (.blockBody 0)
    (encodeContainer [.var, .var, .var] [encodeVarList [[1]], [1, 5, 0], encodeVarList [[7]]]) = none := by rfl

end Verif.HistoryExample
