import Verif.Props.HistoryValueSpec
import Verif.Lemmas.E2hsGenComplete

/-! # C71: the single generator of E2HS files -/

namespace Verif.Props
open Verif Verif.E2hsGen Verif.E2hsSpec
open Verif.E2store (Res Short)
open Verif.Archive (E2hs e2hsFormat versionEntry Codec)
open Verif.HeaderValidator (HeaderProof Summary)
open Verif.HistoryValue (Body)
open Verif.ExecBuilder (Header)

variable {Tx Rc Wd : Type}

/-- Whatever archives and node serve: a file that is made has exactly the 8192 blocks of its index in order, each with
its number, a proof that is accepted, and a body and receipts with the roots of the header. Summaries are those of an era
file of the archive. -/
theorem C71_file (i : Inputs Tx Rc Wd) (hh : Codec.Lossless i.codecs.headerWithProof)
    (hb : Codec.Lossless i.codecs.body) (hr : Codec.Lossless i.codecs.receipts)
    (hlat : ∀ l, i.latest = some l → l < 2 ^ 64) (fuel index : Nat) (temp temp' : Bool) (bytes : Bytes) (epoch : UInt64)
    (name : Bytes) (h : run i fuel index temp = some (.ok (bytes, epoch, name), temp')) :
    temp = false ∧ temp' = false ∧ epoch.toNat = index ∧
      ∃ (summaries : List Summary) (ts : List (Full Tx Rc Wd)) (b : Archive.BlockIndex) (last : Full Tx Rc Wd),
        FromArchive i summaries ∧ ts.length = 8192 ∧
        E2hs.deserialize (e2hsFormat i.codecs) bytes = .ok ⟨versionEntry, ts, b⟩ ∧
        b.startingNumber.toNat = index * 8192 ∧
        (∀ (k : Nat) f, ts[k]? = some f → GoodBlock i summaries (index * 8192 + k) f) ∧
        ts.getLast? = some last ∧ name = (i.lib.keccak (i.lib.header.enc last.headerWithProof.1)).bytes.take 4 := by
  unfold run at h
  split at h
  · cases h
  · cases h
  · cases h
  · next b hnew =>
    obtain ⟨hstart, hfrom, l, hl, hle⟩ := newBuilder_from i fuel index b hnew
    have hl64 := hlat l hl
    split at h
    · cases h
    · next ht =>
      split at h
      · next out hout =>
        cases h
        unfold buildFile at hout
        obtain ⟨w, hw, hout⟩ := bind_ok hout
        obtain ⟨w', hw', hout⟩ := bind_ok hout
        rw [hstart] at hw'
        obtain ⟨ts, h1, h2, h3⟩ := writeLoop_ok i b _ _ _ w w' (.inl rfl) hw'
        rw [List.length_range'] at h1
        have hwb : writeBlocks i.codecs (fullHash i) (UInt64.ofNat index) ts = .ok w' := by
          unfold writeBlocks
          rw [hw]
          exact h3
        have hidx : (UInt64.ofNat index).toNat = index := UInt64.toNat_ofNat_of_lt' (show _ < 2 ^ 64 by omega)
        obtain ⟨last, hlast⟩ : ∃ last, ts.getLast? = some last := by
          cases ts with
          | nil => simp at h1
          | cons t ts => exact ⟨_, List.getLast?_eq_some_getLast (by simp)⟩
        obtain ⟨bytes', bi, h4, h5, h6, _⟩ := (C39_writer_finish i.codecs hh hb hr (fullHash i) (UInt64.ofNat index) ts w' hwb
          (written_small i hh hb hr _ ts w' hwb h1) (by rw [hidx]; omega)).2 last h1 hlast
        rw [h4] at hout
        cases hout
        refine ⟨by simpa using ht, rfl, hidx, b.summaries, ts, bi, last, hfrom, h1, h5, by rw [h6, hidx], ?_, hlast, rfl⟩
        intro k f hk
        obtain ⟨n, hn, hg⟩ := h2 k f hk
        rw [List.getElem?_range' (by
          rw [List.getElem?_eq_some_iff] at hn
          obtain ⟨hk, _⟩ := hn
          simpa using hk)] at hn
        cases hn
        rw [Nat.one_mul] at hg
        exact hg
      · next hne =>
        simp only [Option.some.injEq, Prod.mk.injEq] at h
        exact absurd h.1 (hne _)

theorem index_fits (index l : Nat) (h : index * 8192 ≤ l) (hl : l < 2 ^ 64) : index * 8192 + 8192 ≤ 2 ^ 64 := by
  have : index < 2 ^ 51 := by
    refine Classical.byContradiction fun hc => ?_
    have := Nat.mul_le_mul_right 8192 (Nat.le_of_not_lt hc)
    omega
  have := Nat.mul_le_mul_right 8192 (Nat.succ_le_of_lt this)
  rw [Nat.succ_mul] at this
  exact this

/-- When archives and node are honest and the blocks of the index are finished, the file is made and holds the blocks of
the chain.
Missing: attempts after a failed one, and archives with wrong indices, see `C71_retry_violated` and `C71_endless_violated`. -/
theorem C71_complete_partial (i : Inputs Tx Rc Wd) (c : Chain Tx Rc Wd) (index : Nat) (hw : HonestWorld i c index)
    (hh : Codec.Lossless i.codecs.headerWithProof) (hb : Codec.Lossless i.codecs.body)
    (hr : Codec.Lossless i.codecs.receipts) (fuel : Nat) (hf : 3 ≤ fuel) :
    ∃ bytes name, run i fuel index false = some (.ok (bytes, UInt64.ofNat index, name), false) ∧
      ∃ (ts : List (Full Tx Rc Wd)) (b : Archive.BlockIndex), ts.length = 8192 ∧
        E2hs.deserialize (e2hsFormat i.codecs) bytes = .ok ⟨versionEntry, ts, b⟩ ∧
        ∀ k < 8192, ∃ p : HeaderProof, ts[k]? = some ⟨(c.header (index * 8192 + k), p), c.body (index * 8192 + k),
          c.receipts (index * 8192 + k)⟩ := by
  obtain ⟨l, hl, hle, hl64⟩ := hw.latest
  obtain ⟨b, hnew, hready⟩ := ready i c index hw.eras hw.before hw.after hw.chain hw.paris l hl hle hw.three fuel hf
  obtain ⟨ps, hps, hloop⟩ := writeLoop_of i c hw.chain hw.paris index b hready (index_fits index l hle hl64) 8192 (index * 8192) b.receipts []
    (Nat.le_refl _) rfl hready.receipts (.inl rfl)
  have hlen : ((List.range' (index * 8192) 8192).zipWith (chainBlock c) ps).length = 8192 := by
    rw [List.length_zipWith, List.length_range', hps]; omega
  have hget : ∀ k < 8192, ∃ p, ((List.range' (index * 8192) 8192).zipWith (chainBlock c) ps)[k]? =
      some (chainBlock c (index * 8192 + k) p) := by
    intro k hk
    obtain ⟨p, hp⟩ : ∃ p, ps[k]? = some p := ⟨ps[k]'(by omega), List.getElem?_eq_getElem _⟩
    refine ⟨p, ?_⟩
    rw [List.getElem?_zipWith, List.getElem?_range' hk, hp, Nat.one_mul]
  generalize (List.range' (index * 8192) 8192).zipWith (chainBlock c) ps = ts at hloop hlen hget
  have hshort : Short (ts.flatMap (e2hsRecords i.codecs)) := by
    intro r hmem
    rw [List.mem_flatMap] at hmem
    obtain ⟨t, ht, hmem⟩ := hmem
    obtain ⟨k, hk⟩ := List.mem_iff_getElem?.mp ht
    have hk8 : k < 8192 := by
      rw [List.getElem?_eq_some_iff] at hk
      obtain ⟨h, _⟩ := hk
      omega
    obtain ⟨p, hp⟩ := hget k hk8
    rw [hk] at hp
    cases hp
    have h1 := hw.fits.header (index * 8192 + k) p
    have h2 := hw.fits.body (index * 8192 + k)
    have h3 := hw.fits.receipts (index * 8192 + k)
    simp only [e2hsRecords, chainBlock, List.mem_cons, List.not_mem_nil, or_false] at hmem
    rcases hmem with rfl | rfl | rfl <;> simp only <;> omega
  obtain ⟨w, hwb⟩ := (C39_writer_ok i.codecs hh hb hr (fullHash i) (UInt64.ofNat index) ts).mpr hshort
  have hidx : (UInt64.ofNat index).toNat = index := UInt64.toNat_ofNat_of_lt' (show _ < 2 ^ 64 by omega)
  obtain ⟨last, hlast⟩ : ∃ last, ts.getLast? = some last := by
    cases ts with
    | nil => simp at hlen
    | cons t ts => exact ⟨_, List.getLast?_eq_some_getLast (by simp)⟩
  obtain ⟨bytes, bi, h4, h5, h6, _⟩ := (C39_writer_finish i.codecs hh hb hr (fullHash i) (UInt64.ofNat index) ts w hwb
    (written_small i hh hb hr _ ts w hwb hlen) (by rw [hidx]; omega)).2 last hlen hlast
  refine ⟨bytes, (fullHash i last).bytes.take 4, ?_, ts, bi, hlen, h5, hget⟩
  have hbuild : buildFile i b index = .ok (bytes, UInt64.ofNat index, (fullHash i last).bytes.take 4) := by
    unfold buildFile
    rw [hready.start]
    unfold writeBlocks at hwb
    obtain ⟨w0, hw0, hwb⟩ := bind_ok hwb
    rw [hw0]
    show (writeLoop i b (List.range' (index * 8192) 8192) b.receipts [] w0).bind _ = _
    rw [hloop w0, hwb]
    exact h4
  unfold run
  rw [hnew]
  simp only [Bool.false_eq_true, if_false, hbuild]

/-- The links of an archive are accepted exactly when there are some and their indices are 0, 1, 2, ... without a gap. -/
theorem C71_links (keys : List Nat) : checkLinks keys = true ↔ keys ≠ [] ∧ keys.Perm (List.range keys.length) := by
  constructor
  · intro h
    unfold checkLinks at h
    rw [Bool.and_eq_true, List.all_eq_true] at h
    refine ⟨fun hn => by subst hn; simp at h, perm_of_subset _ _ List.nodup_range (fun x hx => ?_) (by simp)⟩
    have := h.2 x hx
    rwa [List.contains_iff_mem] at this
  · rintro ⟨h1, h2⟩
    exact checkLinks_perm keys _ h2 (List.length_pos_iff.mpr h1)

/-- A failed attempt blocks all later ones: when the node answers without receipts, the attempt fails and leaves its
temporary file; then even with honest archives and node no later attempt succeeds, although it would have without that
file. -/
theorem C71_retry_violated (i : Inputs Tx Rc Wd) (c : Chain Tx Rc Wd) (index : Nat) (hw : HonestWorld i c index)
    (hpost : 15537394 ≤ index * 8192) (hh : Codec.Lossless i.codecs.headerWithProof) (hb : Codec.Lossless i.codecs.body)
    (hr : Codec.Lossless i.codecs.receipts) (fuel : Nat) (hf : 3 ≤ fuel) :
    run { i with receipts := fun _ => some [] } fuel index false = some (.err, true) ∧
    run i fuel index true = some (.err, true) ∧
    ∃ out, run i fuel index false = some (.ok out, false) := by
  obtain ⟨bytes, name, hok, _⟩ := C71_complete_partial i c index hw hh hb hr fuel hf
  obtain ⟨l, hl, hle, hl64⟩ := hw.latest
  obtain ⟨b, hnew, hready⟩ := ready i c index hw.eras hw.before hw.after hw.chain hw.paris l hl hle hw.three fuel hf
  refine ⟨?_, ?_, _, hok⟩
  · have hpar : parisAt i.net (index * 8192) = true := by
      have := hw.paris
      unfold parisAt; simp; omega
    have hpar' : parisAt i.net (index * 8192 + 8192) = true := by
      have := hw.paris
      unfold parisAt; simp; omega
    have hempty : ∀ cs : List (List Nat), receiptsRange (fun _ => some ([] : List (Option (List Rc)))) cs = some [] := by
      intro cs
      induction cs with
      | nil => rfl
      | cons a cs ih => unfold receiptsRange; simp [ih]
    have hnew' : newBuilder { i with receipts := fun _ => some [] } fuel index = some (.ok { b with receipts := [] }) := by
      unfold newBuilder at hnew ⊢
      have e1 : lookupAccumulator { i with receipts := fun _ => some [] } index = lookupAccumulator i index := rfl
      have e2 : lookupReceipts { i with receipts := fun _ => some [] } index = some [] := by
        unfold lookupReceipts
        rw [if_pos hpar']
        exact hempty _
      rw [e1, e2]
      simp only
      split at hnew
      · cases hnew
      · cases hnew
      · split at hnew
        · cases hnew
        · split at hnew
          · cases hnew
          · cases hnew; rfl
        · cases hnew
    have hnext : ∀ s, nextBlock { i with receipts := fun _ => some [] } { b with start := s, receipts := [] } []
        (index * 8192) = .err := by
      intro s
      unfold nextBlock
      rw [if_pos hpar]
      obtain ⟨e, x, hfp, hn, hx, hs⟩ := hready.post (index * 8192) (Nat.le_refl _) (by omega) hpost
      obtain ⟨p, hpf, hv⟩ := proof_ok i c e (index * 8192) x hx hn (hw.chain.number _ (by omega)) hw.paris hpost
        b.summaries hs
      have hbd := (C70_exact i.lib (fun k batch => proofFor i.H k.slot batch x.beacon.fork x.tree) x.beacon (c.batch e) p
        (c.header (index * 8192)) (c.body (index * 8192))).mpr ⟨hn ▸ hx.block, hpf⟩
      unfold postBlock getPostMerge
      simp only [hpar, Bool.not_true, Bool.false_eq_true, if_false, hfp, Res.bind]
      rw [if_neg (by simp [hn]), hbd]
      rfl
    have hbuild : buildFile { i with receipts := fun _ => some [] } { b with receipts := [] } index = .err := by
      unfold buildFile
      have hstart : ({ b with receipts := [] } : Builder Tx Rc Wd).start = index * 8192 := hready.start
      rw [hstart]
      obtain ⟨w, hcw⟩ : ∃ w, Archive.Writer.create (UInt64.ofNat index) = .ok w := ⟨_, rfl⟩
      rw [hcw]
      simp only [Res.bind]
      rw [List.range'_succ]
      show (Res.bind (Res.bind (nextBlock _ _ _ _) _) _) = _
      rw [hnext]
      rfl
    unfold run
    rw [hnew']
    simp only [Bool.false_eq_true, if_false, hbuild]
  · unfold run
    rw [hnew]
    rfl

/-- Downloads need not end: if the era files of an archive state the index before their own, the same file is
downloaded again and again. -/
theorem C71_endless_violated (i : Inputs Tx Rc Wd) (c : Chain Tx Rc Wd) (index e : Nat) (hw : HonestWorld i c index)
    (h1 : 574 ≤ e) (h2 : e ≤ c.lastEra) (h3 : c.first e ≤ index * 8192) (h4 : index * 8192 < c.first (e + 1))
    (h5 : c.first (e + 1) < index * 8192 + 8192) (fuel : Nat) (temp : Bool) :
    run { i with site := shifted i.site } fuel index temp = none := by
  obtain ⟨l, hl, hle, _⟩ := hw.latest
  obtain ⟨links, hlinks, hperm⟩ := hw.after.links
  have hm := first_le c hw.eras 574 e (by omega) h1 (by omega)
  rw [hw.eras.merge] at hm
  have hp := hw.paris
  have hla : lookupAccumulator { i with site := shifted i.site } index = .ok none := by
    unfold lookupAccumulator
    simp only [hl]
    rw [if_neg (by omega), if_pos (by unfold parisAt; simp; omega)]
  have hprov : provider i.net (shifted i.site) fuel index = none := by
    unfold provider
    have : (shifted i.site).eraLinks = some links := hlinks
    rw [this]
    simp only [checkLinks_perm links _ hperm (by omega), Bool.not_true, Bool.false_eq_true, if_false,
      collect_shifted i c hw.eras hw.after links hperm hp e _ h1 h2 h5 fuel (index * 8192) none []
        (.inl ⟨rfl, h3, h4⟩), Option.map_none]
  unfold run newBuilder
  rw [hla]
  simp only [hprov]

/-! ## Concrete cases -/

namespace E2hsGenExample

/-- Encodings that are not a prefix of each other, to have lossless codecs. -/
class Enc (α : Type) where
  enc : α → Bytes
  inj : ∀ x y r s, enc x ++ r = enc y ++ s → x = y ∧ r = s

open Enc (enc)

theorem fixed_inj {α : Type} (f : α → Bytes) (k : Nat) (hk : ∀ x, (f x).length = k) (hf : ∀ x y, f x = f y → x = y)
    (x y : α) (r s : Bytes) (h : f x ++ r = f y ++ s) : x = y ∧ r = s := by
  obtain ⟨h1, h2⟩ := List.append_inj h (by rw [hk, hk])
  exact ⟨hf _ _ h1, h2⟩

instance : Enc Id where
  enc x := toBe 32 x.toNat
  inj := fixed_inj _ 32 (fun x => toBe_length ..) fun x y h => by
    have h := congrArg fromBe h
    rw [fromBe_toBe, fromBe_toBe, Nat.mod_eq_of_lt (show x.toNat < 256 ^ 32 from x.isLt),
      Nat.mod_eq_of_lt (show y.toNat < 256 ^ 32 from y.isLt)] at h
    exact BitVec.eq_of_toNat_eq h
instance : Enc (BitVec 160) where
  enc x := toBe 20 x.toNat
  inj := fixed_inj _ 20 (fun x => toBe_length ..) fun x y h => by
    have h := congrArg fromBe h
    rw [fromBe_toBe, fromBe_toBe, Nat.mod_eq_of_lt (show x.toNat < 256 ^ 20 from x.isLt),
      Nat.mod_eq_of_lt (show y.toNat < 256 ^ 20 from y.isLt)] at h
    exact BitVec.eq_of_toNat_eq h
instance : Enc UInt64 where
  enc x := toBe 8 x.toNat
  inj := fixed_inj _ 8 (fun x => toBe_length ..) fun x y h => by
    have h := congrArg fromBe h
    rw [fromBe_toBe, fromBe_toBe, Nat.mod_eq_of_lt (show x.toNat < 256 ^ 8 from x.toNat_lt),
      Nat.mod_eq_of_lt (show y.toNat < 256 ^ 8 from y.toNat_lt)] at h
    exact UInt64.toNat_inj.mp h
instance : Enc UInt8 where
  enc x := [x]
  inj := fixed_inj _ 1 (fun _ => rfl) fun x y h => by simpa using h

variable {α β : Type}

instance [Enc α] [Enc β] : Enc (α × β) where
  enc x := enc x.1 ++ enc x.2
  inj x y r s h := by
    simp only [List.append_assoc] at h
    obtain ⟨h1, h2⟩ := Enc.inj _ _ _ _ h
    obtain ⟨h3, h4⟩ := Enc.inj _ _ _ _ h2
    exact ⟨Prod.ext h1 h3, h4⟩

instance [Enc α] : Enc (Option α) where
  enc
    | none => [0]
    | some x => 1 :: enc x
  inj x y r s h := by
    cases x <;> cases y
    · exact ⟨rfl, by simpa using h⟩
    · simp at h
    · simp at h
    · simp only [List.cons_append, List.cons.injEq, true_and] at h
      obtain ⟨h1, h2⟩ := Enc.inj _ _ _ _ h
      exact ⟨congrArg some h1, h2⟩

def encList [Enc α] : List α → Bytes
  | [] => [0]
  | x :: l => 1 :: (enc x ++ encList l)

instance [Enc α] : Enc (List α) where
  enc := encList
  inj x := by
    induction x with
    | nil =>
      intro y r s h
      cases y with
      | nil => exact ⟨rfl, by simpa [encList] using h⟩
      | cons => simp [encList] at h
    | cons a x ih =>
      intro y r s h
      cases y with
      | nil => simp [encList] at h
      | cons b y =>
        simp only [encList, List.cons_append, List.cons.injEq, true_and, List.append_assoc] at h
        obtain ⟨h1, h2⟩ := Enc.inj _ _ _ _ h
        obtain ⟨h3, h4⟩ := ih y r s h2
        exact ⟨by rw [h1, h3], h4⟩

/-- Encode through another type. -/
def Enc.of [Enc β] (f : α → β) (hf : ∀ x y, f x = f y → x = y) : Enc α where
  enc x := enc (f x)
  inj x y r s h := by
    obtain ⟨h1, h2⟩ := Enc.inj _ _ _ _ h
    exact ⟨hf _ _ h1, h2⟩

def headerFields (h : Header) :=
  (h.parentHash, h.ommersHash, h.beneficiary, h.stateRoot, h.transactionsRoot, h.receiptsRoot, h.logsBloom, h.difficulty,
    h.gasLimit, h.gasUsed, h.timestamp, h.extraData, h.mixHash, h.nonce, h.baseFee, h.withdrawalsRoot,
    h.blobGasUsed, h.excessBlobGas, h.parentBeaconBlockRoot, h.requestsHash, h.number)

instance : Enc Header := Enc.of headerFields fun x y h => by
  cases x; cases y
  simp only [headerFields, Prod.mk.injEq] at h
  simp only [Header.mk.injEq]
  simp only [h, and_self]

def proofFields : HeaderProof → UInt8 × List Id × Id × List Id × UInt64
  | .hashes p => (0, p.toList, 0, [], 0)
  | .roots p => (1, p.beaconBlockProof.toList, p.beaconBlockRoot, p.executionBlockProof.toList, p.slot)
  | .capella p => (2, p.beaconBlockProof.toList, p.beaconBlockRoot, p.executionBlockProof.toList, p.slot)
  | .deneb p => (3, p.beaconBlockProof.toList, p.beaconBlockRoot, p.executionBlockProof.toList, p.slot)

instance : Enc HeaderProof := Enc.of proofFields fun x y h => by
  cases x <;> cases y <;> simp only [proofFields, Prod.mk.injEq] at h
  case hashes.hashes p q => rw [Vector.toList_inj.mp h.2.1]
  case roots.roots p q => cases p; cases q; simp only [Vector.toList_inj] at h; simp only [HeaderProof.roots.injEq, HeaderValidator.RootsProof.mk.injEq]; exact h.2
  case capella.capella p q => cases p; cases q; simp only [Vector.toList_inj] at h; simp only [HeaderProof.capella.injEq, HeaderValidator.CapellaProof.mk.injEq]; exact h.2
  case deneb.deneb p q => cases p; cases q; simp only [Vector.toList_inj] at h; simp only [HeaderProof.deneb.injEq, HeaderValidator.DenebProof.mk.injEq]; exact h.2
  all_goals exact absurd h.1 (by decide)

instance : Enc (Body Header Bytes Bytes) := Enc.of (fun b => (b.transactions, b.ommers, b.withdrawals)) fun x y h => by
  cases x; cases y
  simp only [Prod.mk.injEq] at h
  simp only [Body.mk.injEq]
  exact h

open Classical in
noncomputable def codec (α : Type) [Enc α] : Codec α where
  enc := enc
  dec b := if h : ∃ x : α, enc x = b then some h.choose else none

open Classical in
theorem codec_lossless (α : Type) [Enc α] : Codec.Lossless (codec α) := by
  intro x
  show (if h : ∃ y : α, enc y = enc x then some h.choose else none) = some x
  have hx : ∃ y : α, enc y = enc x := ⟨x, rfl⟩
  rw [dif_pos hx]
  have := hx.choose_spec
  exact congrArg some (Enc.inj _ _ [] [] (by rw [this])).1

open Classical in
/-- An encoding that is read whatever follows. -/
noncomputable def wire (α : Type) [Enc α] : HistoryValue.Wire α where
  enc := enc
  dec b := if h : ∃ x : α, enc x <+: b then some h.choose else none

open Classical in
theorem wire_faithful (α : Type) [Enc α] : (wire α).Faithful := by
  constructor
  · intro x rest
    show (if h : ∃ y : α, enc y <+: enc x ++ rest then some h.choose else none) = some x
    have hx : ∃ y : α, enc y <+: enc x ++ rest := ⟨x, List.prefix_append ..⟩
    rw [dif_pos hx]
    obtain ⟨r, hr⟩ := hx.choose_spec
    exact congrArg some (Enc.inj _ _ _ _ hr).1
  · intro b x h
    have h : (if h : ∃ y : α, enc y <+: b then some h.choose else none) = some x := h
    split at h
    · rename_i hx
      cases h
      exact hx.choose_spec
    · cases h

/-! A chain: blocks with one transaction and one receipt, Capella from block 17052914 on, and 8192 blocks in every era
from the merge on. -/

open Verif.ExecBuilder (ExecLib Beacon Payload)
open Verif.HeaderValidator (Fork Record containerRoot)

noncomputable def lib : ExecLib Bytes Bytes Bytes where
  header := wire _
  ommers := wire _
  tx := wire _
  txEnvelope := some
  receipt := wire _
  withdrawal := wire _
  keccak b := BitVec.ofNat 256 (fromBe b)
  sha256 _ := 0
  trieRoot l := BitVec.ofNat 256 (l.length + 5)

def H (a b : Id) : Id := a + 2 * b
def first (e : Nat) : Nat := 15537394 + (e - 574) * 8192
def fork (n : Nat) : Fork := if n < 17052914 then .bellatrix else .capella

noncomputable def header (n : Nat) : Header where
  parentHash := 0
  ommersHash := lib.keccak (lib.ommers.enc [])
  beneficiary := 0
  stateRoot := 0
  transactionsRoot := lib.trieRoot [[1]]
  receiptsRoot := lib.trieRoot [[7]]
  logsBloom := []
  difficulty := 0
  number := UInt64.ofNat n
  gasLimit := 9
  gasUsed := 8
  timestamp := if n < 17052914 then 1 else 2
  extraData := []
  mixHash := 0
  nonce := 0
  baseFee := some 3
  withdrawalsRoot := if n < 17052914 then none else some (lib.trieRoot [])
  blobGasUsed := none
  excessBlobGas := none
  parentBeaconBlockRoot := none
  requestsHash := none

noncomputable def body (n : Nat) : Body Header Bytes Bytes := ⟨[[1]], [], if n < 17052914 then none else some []⟩

noncomputable def beacon (n : Nat) : Beacon Bytes where
  fork := fork n
  slot := UInt64.ofNat (573 * 8192 + (n - 15537394))
  parentRoot := 0
  payload := ⟨0, 0, 0, lib.trieRoot [[7]], [], 0, UInt64.ofNat n, 9, 8, (header n).timestamp, [], 3,
    lib.keccak (lib.header.enc (header n)), [[1]], [], 0, 0⟩
  requests := ⟨[], [], []⟩

noncomputable def signed (n : Nat) : Signed Bytes := ⟨beacon n, ⟨Vector.replicate 4 1, Vector.replicate 9 2, Vector.replicate _ 3,
  Vector.replicate 12 4, (beacon n).payload.blockHash, Vector.replicate _ 5⟩⟩

noncomputable def batch (e : Nat) : Batch :=
  ⟨Vector.ofFn fun k : Fin 8192 => (signed (first e + k)).tree.root H, Vector.replicate 8192 0⟩

noncomputable def summaries (e : Nat) : List Summary := (List.range' 758 (e - 758)).map fun p =>
  ⟨containerRoot H (batch (p + 1)).blockRoots.toList, 0⟩

noncomputable def era (e : Nat) : Era Bytes :=
  ⟨e, (List.range' (first e) 8192).map signed, batch e, some (summaries e)⟩

noncomputable def chain : Chain Bytes Bytes Bytes := ⟨header, body, fun _ => [[7]], first, batch, 800⟩

noncomputable def records (index : Nat) : List Record :=
  (List.range' (index * 8192) (min 8192 (15537394 - index * 8192))).map fun n => ⟨lib.keccak (lib.header.enc (header n)), 0⟩

@[irreducible] noncomputable def epochs (k : Nat) : List Id := (List.range k).map fun k => epochRoot H (records k)
@[irreducible] noncomputable def historicalRoots (k : Nat) : List Id := (List.range k).map fun p =>
  H (containerRoot H (batch (p + 1)).blockRoots.toList) (containerRoot H (batch (p + 1)).stateRoots.toList)
noncomputable def world (index : Nat) : Inputs Bytes Bytes Bytes where
  lib := lib
  H := H
  net := ⟨15537394, 2, 3⟩
  trusted := ⟨epochs 1897, historicalRoots 758⟩
  codecs := ⟨codec _, codec _, codec _⟩
  latest := some 20000000
  accumulator _ := some (records index)
  receipts ns := some (ns.map fun _ => some [[7]])
  site :=
    { eraLinks := some (List.range 801)
      era1Links := some (List.range 1897)
      first := fun e => .ok (first e)
      era := fun e => if e ≤ 800 then .ok (era e) else .err
      era1 := fun k => .ok ((List.range' (k * 8192) (min 8192 (15537394 - k * 8192))).map fun n =>
        ⟨header n, body n, [[7]], 0⟩) }

attribute [local irreducible] containerRoot batch summaries

theorem world_H (index : Nat) : (world index).H = H := rfl
theorem chain_batch : chain.batch = batch := rfl
theorem world_roots (index : Nat) : (world index).trusted.historicalRoots = historicalRoots 758 := rfl
theorem world_epochs (index : Nat) : (world index).trusted.epochs = epochs 1897 := rfl
theorem era_summaries (e : Nat) : (era e).summaries = some (summaries e) := rfl
theorem number_toNat (n : Nat) (h : n < 2 ^ 64) : (UInt64.ofNat n).toNat = n := UInt64.toNat_ofNat_of_lt' h

theorem roots (n : Nat) : RootsOf lib (header n) (body n) := by
  refine ⟨rfl, rfl, ?_⟩
  unfold header body
  simp only
  split <;> rfl

theorem blockOf (n : Nat) : BlockOf lib (beacon n) (header n) (body n) := by
  have hf : fork n = .bellatrix ∧ n < 17052914 ∨ fork n = .capella ∧ ¬ n < 17052914 := by
    unfold fork
    by_cases h : n < 17052914
    · exact .inl ⟨if_pos h, h⟩
    · exact .inr ⟨if_neg h, h⟩
  have hb : (beacon n).fork = fork n := rfl
  refine ⟨?_, ?_, roots n, rfl, rfl⟩
  · rcases hf with ⟨hf, hn⟩ | ⟨hf, hn⟩
    all_goals
      rw [hb, hf]
      exact ⟨rfl, rfl, rfl, rfl, by simp [header, hn, Fork.hasWithdrawals], rfl, rfl, rfl, rfl⟩
  · rcases hf with ⟨hf, hn⟩ | ⟨hf, hn⟩
    all_goals
      refine ⟨rfl, rfl, rfl, rfl, rfl, rfl, rfl, rfl, rfl, rfl, rfl, rfl, rfl, ?_, ?_, ?_, ?_, ?_⟩ <;> rw [hb, hf]
      · simp [body, hn, Fork.hasWithdrawals]; try rfl
      all_goals rfl

theorem beaconOf (index e n : Nat) (h1 : 574 ≤ e) (h2 : e ≤ 800) (h3 : first e ≤ n) (h4 : n < first e + 8192) :
    BeaconOf (world index) chain e (signed n) := by
  unfold first at h3 h4
  have hn : (signed n).number = n := number_toNat n (show _ < 2 ^ 64 by omega)
  have hs : (beacon n).slot.toNat = 573 * 8192 + (n - 15537394) := number_toNat _ (show _ < 2 ^ 64 by omega)
  have hfork : (signed n).beacon.fork = fork n := rfl
  refine ⟨by rw [hn]; exact blockOf n, rfl, ?_, ?_, ?_, ?_, ?_, ?_⟩
  · show (beacon n).slot.toNat / 8192 + 1 = e
    rw [hs]; omega
  · show (batch e).blockRoots.toList[(beacon n).slot.toNat % 8192]? = some ((signed n).tree.root H)
    rw [hs]
    have hk : (573 * 8192 + (n - 15537394)) % 8192 < 8192 := by omega
    have he : first e + (573 * 8192 + (n - 15537394)) % 8192 = n := by unfold first; omega
    generalize (573 * 8192 + (n - 15537394)) % 8192 = k at hk he
    subst he
    unfold batch
    simp only [Vector.toList_ofFn, List.getElem?_ofFn, hk, dif_pos]
  · intro hf
    rw [hfork] at hf
    have hlt : n < 17052914 := by
      refine Classical.byContradiction fun hc => ?_
      unfold fork at hf
      rw [if_neg hc] at hf
      cases hf
    rw [hn]
    refine ⟨?_, ?_⟩
    · show (if n < 17052914 then (1 : UInt64) else 2) < 2
      rw [if_pos hlt]; decide
    · rw [world_roots, world_H, chain_batch, historicalRoots, List.getElem?_map, List.getElem?_range (by omega)]
      simp only [Option.map_some]
      rw [show e - 1 + 1 = e by omega]
  · intro hf
    rw [hfork] at hf
    have hge : ¬ n < 17052914 := by
      intro hc
      unfold fork at hf
      rw [if_pos hc] at hf
      cases hf
    rw [hn]
    show (2 : UInt64) ≤ (if n < 17052914 then (1 : UInt64) else 2) ∧ (if n < 17052914 then (1 : UInt64) else 2) < 3
    rw [if_neg hge]
    decide
  · intro hf
    rw [hfork] at hf
    unfold fork at hf
    exfalso
    split at hf <;> rcases hf with hf | hf <;> cases hf
  · intro hf
    rw [hfork] at hf
    have hge : ¬ n < 17052914 := by
      intro hc
      unfold fork at hf
      rw [if_pos hc] at hf
      exact hf rfl
    omega

theorem eraOf (index e : Nat) (h1 : 574 ≤ e) (h2 : e ≤ 800) : EraOf (world index) chain e (era e) := by
  have hlen : first (e + 1) - first e = 8192 := by unfold first; omega
  refine ⟨rfl, ⟨[], (List.range' (first e) 8192).map signed, rfl, fun _ => rfl, fun b hb => (by cases hb), ?_, ?_⟩, rfl, ?_⟩
  · show _ = List.range' (first e) (first (e + 1) - first e)
    rw [hlen, List.map_map]
    conv => rhs; rw [← List.map_id (List.range' (first e) 8192)]
    apply List.map_congr_left
    intro n hn
    rw [List.mem_range'_1] at hn
    have hb : first e + 8192 < 2 ^ 64 := by unfold first; omega
    exact number_toNat n (by omega)
  · intro b hb
    obtain ⟨n, hn, rfl⟩ := List.mem_map.mp hb
    rw [List.mem_range'_1] at hn
    exact beaconOf index e n h1 h2 hn.1 hn.2
  · intro he
    rw [world_H, chain_batch]
    refine ⟨_, era_summaries e, fun p hp hp' => ⟨⟨containerRoot H (batch (p + 1)).blockRoots.toList, 0⟩, ?_, rfl⟩⟩
    rw [summaries, List.getElem?_map, List.getElem?_range' (by omega)]
    simp only [Option.map_some, Nat.one_mul]
    rw [show 758 + (p - 758) = p by omega]

theorem encIds_length (l : List Id) : (enc l).length = 33 * l.length + 1 := by
  induction l with
  | nil => rfl
  | cons a l ih =>
    show (1 :: (toBe 32 a.toNat ++ enc l)).length = _
    rw [List.length_cons, List.length_append, toBe_length, ih, List.length_cons]
    omega

theorem fits (index : Nat) : Fits (world index) chain := by
  refine ⟨fun n p => ?_, fun n => ?_, fun n => by show ([1, 1, 7, 0, 0] : Bytes).length + 8 < 2 ^ 32; decide⟩
  · show (enc (header n) ++ enc p).length + 8 < 2 ^ 32
    have h1 : (enc (header n)).length ≤ 1000 := by
      show (enc (headerFields (header n))).length ≤ 1000
      unfold headerFields header
      simp only
      split <;> simp [enc, encList]
    have h2 : (enc p).length ≤ 1000 := by
      show (enc (proofFields p)).length ≤ 1000
      have key : ∀ x : UInt8 × List Id × Id × List Id × UInt64, (enc x).length =
          1 + (33 * x.2.1.length + 1) + 32 + (33 * x.2.2.2.1.length + 1) + 8 := by
        intro x
        obtain ⟨a, b, c, d, e⟩ := x
        show (enc a ++ (enc b ++ (enc c ++ (enc d ++ enc e)))).length = _
        simp only [List.length_append, encIds_length]
        have e1 : (enc a).length = 1 := rfl
        have e2 : (enc c).length = 32 := toBe_length ..
        have e3 : (enc e).length = 8 := toBe_length ..
        omega
      rw [key]
      cases p <;> simp [proofFields]
    rw [List.length_append]
    omega
  · show (enc ((body n).transactions, (body n).ommers, (body n).withdrawals)).length + 8 < 2 ^ 32
    unfold body
    simp only
    split <;> decide +kernel

theorem honest (index : Nat) (hi : index * 8192 ≤ 20000000) (h3 : ThreeFiles chain index) :
    HonestWorld (world index) chain index where
  eras := ⟨rfl, by decide, fun e h1 h2 => by show first e < first (e + 1); unfold first; omega, by decide⟩
  before := by
    refine ⟨⟨_, rfl, List.Perm.refl _⟩, fun hk => ⟨fun _ => 0, rfl⟩, fun hk => ⟨records index, ?_, rfl, ?_, ?_⟩⟩
    · rw [world_epochs, world_H, epochs, List.getElem?_map, List.getElem?_range hk]
      simp only [Option.map_some]
    · unfold records
      rw [List.length_map, List.length_range']
      omega
    · intro n hn hk
      refine ⟨⟨lib.keccak (lib.header.enc (header n)), 0⟩, ?_, rfl⟩
      unfold records
      rw [List.getElem?_map, List.getElem?_range' (by omega)]
      simp only [Option.map_some, Nat.one_mul]
      rw [show index * 8192 + n % 8192 = n by omega]
  after := by
    refine ⟨⟨_, rfl, List.Perm.refl _⟩, fun e h1 h2 => ⟨era e, if_pos h2, eraOf index e h1 h2, fun b hb => ?_⟩, fun ns => rfl⟩
    have hh : (era e).blocks.head? = some (signed (first e)) := by
      unfold era
      rw [List.head?_map, List.head?_range', if_neg (by omega)]
      rfl
    rw [hh] at hb
    rw [← Option.some.inj hb]
    have h2 : e ≤ 800 := h2
    exact congrArg Res.ok (number_toNat (first e) (show _ < 2 ^ 64 by unfold first; omega)).symm
  chain := ⟨fun n hn => number_toNat n hn, fun n => roots n, fun _ => rfl⟩
  fits := fits index
  three := h3
  paris := rfl
  latest := ⟨_, rfl, hi, by decide⟩

/-- The file of the merge: 5362 blocks before and 2830 after it. -/
example : ∃ bytes name, run (world 1896) 3 1896 false = some (.ok (bytes, 1896, name), false) := by
  have hw := honest 1896 (by decide) (by
    unfold ThreeFiles
    rw [if_pos (by decide)]
    exact .inr (by decide))
  obtain ⟨bytes, name, h, _⟩ := C71_complete_partial (world 1896) chain 1896 hw (codec_lossless _) (codec_lossless _)
    (codec_lossless _) 3 (by omega)
  exact ⟨bytes, name, h⟩

theorem three2100 : ThreeFiles chain 2100 := by
  unfold ThreeFiles
  rw [if_neg (by decide)]
  exact ⟨777, by decide, by decide, by decide, by decide, by decide⟩

/-- A file of Capella blocks from two eras, what it holds, and what may go wrong. -/
example : ∃ bytes name, run (world 2100) 3 2100 false = some (.ok (bytes, 2100, name), false) ∧
    ∃ (summaries : List Summary) (ts : List (Full Bytes Bytes Bytes)), FromArchive (world 2100) summaries ∧ ts.length = 8192 ∧
      ∀ (k : Nat) f, ts[k]? = some f → GoodBlock (world 2100) summaries (17203200 + k) f := by
  have hw := honest 2100 (by decide) three2100
  obtain ⟨bytes, name, h, _⟩ := C71_complete_partial (world 2100) chain 2100 hw (codec_lossless _) (codec_lossless _)
    (codec_lossless _) 3 (by omega)
  obtain ⟨_, _, _, s, ts, b, last, h1, h2, h3, h4, h5, _⟩ := C71_file (world 2100) (codec_lossless _) (codec_lossless _)
    (codec_lossless _) (fun l hl => by cases hl; decide) 3 2100 false false bytes 2100 name h
  exact ⟨bytes, name, h, s, ts, h1, h2, h5⟩
example : run { world 2100 with receipts := fun _ => some [] } 3 2100 false = some (.err, true) ∧
    run (world 2100) 3 2100 true = some (.err, true) := by
  obtain ⟨h1, h2, _⟩ := C71_retry_violated (world 2100) chain 2100 (honest 2100 (by decide) three2100) (by decide)
    (codec_lossless _) (codec_lossless _) (codec_lossless _) 3 (by omega)
  exact ⟨h1, h2⟩
example (fuel : Nat) : run { world 2100 with site := shifted (world 2100).site } fuel 2100 false = none :=
  C71_endless_violated (world 2100) chain 2100 777 (honest 2100 (by decide) three2100) (by decide) (by decide) (by decide)
    (by decide) (by decide) fuel false
example : checkLinks [2, 0, 1] = true ∧ checkLinks [0, 2] = false ∧ checkLinks [] = false := by decide

end E2hsGenExample

end Verif.Props
