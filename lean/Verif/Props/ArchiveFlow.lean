import Verif.Lemmas.ArchiveFlow
import Verif.Props.E2hsBridge
import Verif.Props.E2hsGen
import Verif.Props.EthRpc

/-! # C96: from archive files to the eth endpoints -/

namespace Verif.Props
open Verif Verif.ContentKey Verif.HistoryValue Verif.HistoryNode Verif.Props.ArchiveFlow Verif.ArchiveFlow
open Verif.HistoryValidator (Accepts)
open Verif.HeaderValidator (HeaderProof Summary)
open Verif.E2hsBridge (Tuple)
open Verif.EthRpc (getBlock)

variable {Hd Tx Rc Wd : Type} (n : Node Hd Tx Rc Wd) (hf : n.lib.Faithful) (summaries : List Summary)
include hf

/-- A node accepts all four contents of a block that fits: the header by hash and by number at once, the body and the receipts
when it was answered the header; as long as the summaries that it has and gets are right. -/
theorem C96_accepted (t : Tuple Hd Tx Rc Wd) (fit : Fit n summaries t) (s : HistoryNode.State) (hc : s.cache <+: summaries)
    (m : Moment) (ht : Tells summaries m.source) (key : Legacy) (content : Bytes) (hk : ContentOf n.lib t key content)
    (hh : ∀ k, needs key = some k → m.header k = some (headerBytes n.lib t) ∧ (k, headerBytes n.lib t) ∈ s.answered) :
    Accepts (env n s m) s.cache key content := by
  cases hk with
  | byHash => exact accept_byHash hf fit hc ht
  | byNumber => exact accept_byNumber hf fit hc ht
  | body => exact accept_body hf fit (hh _ rfl).1 (hh _ rfl).2
  | receipts => exact accept_receipts hf fit (hh _ rfl).1 (hh _ rfl).2

/-- A node that gets parcels with contents of such blocks, the header of a block before the rest or looked up, has all of them
afterwards, byte for byte, and what it had before. -/
theorem C96_taken (s : HistoryNode.State) (ps : List Parcel) (hd : Delivery n summaries s ps) :
    ∃ s', run n s (feed s.held.length ps) = .ok s' ∧
      (∀ p ∈ ps, get n s'.store p.key = some p.content) ∧
      ∀ key v, get n s.store key = some v → get n s'.store key = some v := by
  obtain ⟨s', h1, _, h2, h3⟩ := feed_spec n hf summaries ps s hd
  exact ⟨s', h1, h2, h3⟩

/-- The eth endpoints on a node that has the header under its hash, or its number, and the body of a block answer with exactly
that block. -/
theorem C96_answered (t : Tuple Hd Tx Rc Wd) (fit : Fit n summaries t) (s : HistoryNode.State) (api : EthRpc.Api Hd Tx Rc Wd)
    (ho : On n s api) (hb : get n s.store (.blockBody (hashOf n.lib t)) = some (bodyBytes n.lib t)) :
    (get n s.store (.headerByHash (hashOf n.lib t)) = some (headerBytes n.lib t) →
      getBlock api (.hash (hashOf n.lib t)) false = .ok (rpcBlock n.lib t.headerWithProof.1 t.body)) ∧
    (get n s.store (.headerByNumber (n.lib.view t.headerWithProof.1).number) = some (headerBytes n.lib t) →
      getBlock api (.number (n.lib.view t.headerWithProof.1).number) false =
        .ok (rpcBlock n.lib t.headerWithProof.1 t.body)) := by
  obtain ⟨h1, h2, h3⟩ := ho
  have hbody : ∀ block, EthRpc.Answers api block t.headerWithProof.1 →
      getBlock api block false = .ok (rpcBlock n.lib t.headerWithProof.1 t.body) := by
    intro block ha
    have := C60_block_complete api (by rw [h1]; exact hf) block t.headerWithProof.1 t.body (bodyBytes n.lib t) ha fit.uncles
      (by rw [h1]; exact h3 _ _ hb) (by rw [h1]; rfl) fit.bodySize
    rw [this, h1]
    rfl
  constructor
  · intro hh
    exact hbody _ ⟨_, _, t.headerWithProof.2, rfl, h3 _ _ hh, by rw [h1, h2]; exact headerBytes_decode hf fit _⟩
  · intro hh
    exact hbody _ ⟨_, _, t.headerWithProof.2, rfl, h3 _ _ hh, by rw [h1, h2]; exact headerBytes_decode_number hf fit _⟩

section Bridge
variable {P : Type} (env : E2hsBridge.Env Hd Tx Rc Wd) (hs : SameChain n env) (range : E2hsBridge.BlockRange) (files : List Nat)
  (order : List E2hsBridge.Part → List E2hsBridge.Part) (hord : ∀ l, (order l).Perm l) (stop : Nat)
  (hend : FileBridge.EndsAt range files stop) (hstop : stop + 8192 < 2 ^ 64)
include hs hord hend hstop

/-- From the files of a bridge to the answers of a node: when the bridge has finished, and what it served of blocks that fit
came to a node, then the endpoints of that node answer every block of the files that is in the range and fits, by its hash and
by its number. -/
theorem C96_archive (b : E2hsBridge.State Hd Tx Rc Wd P) (hr : FileBridge.Reachable env range files order b)
    (hm : b.main = .finished) (s : HistoryNode.State) (ps : List Parcel) (hd : Delivery n summaries s ps)
    (hb : Brought n summaries b ps) :
    ∃ s', run n s (feed s.held.length ps) = .ok s' ∧ ∀ api, On n s' api →
      ∀ e ts, range.start / 8192 ≤ e → e ≤ stop / 8192 → FileBridge.File env e ts → FileBridge.OwnBlocks env e ts →
        ∀ t ∈ ts, Fit n summaries t →
          range.start ≤ (n.lib.view t.headerWithProof.1).number.toNat → (n.lib.view t.headerWithProof.1).number.toNat ≤ stop →
          getBlock api (.hash (hashOf n.lib t)) false = .ok (rpcBlock n.lib t.headerWithProof.1 t.body) ∧
          getBlock api (.number (n.lib.view t.headerWithProof.1).number) false =
            .ok (rpcBlock n.lib t.headerWithProof.1 t.body) := by
  obtain ⟨s', h1, h2, _⟩ := C96_taken n hf summaries s ps hd
  refine ⟨s', h1, fun api ho e ts he1 he2 hfile hown t ht fit hlo hhi => ?_⟩
  obtain ⟨h3, h4⟩ := C78_complete_partial env range files order hord stop hend hstop b hr hm
  obtain ⟨ts', hfile', h5⟩ := h3 e he1 he2
  have hts : ts' = ts := by
    obtain ⟨bytes, g1, g2⟩ := hfile
    obtain ⟨bytes', g1', g2'⟩ := hfile'
    rw [g1] at g1'; cases g1'
    rw [g2] at g2'; cases g2'; rfl
  subst hts
  have hdue : t ∈ FileBridge.started b e := by
    rw [h5 hown]
    unfold FileBridge.due
    rw [List.mem_filter]
    refine ⟨ht, ?_⟩
    simp only [decide_eq_true_eq]
    refine ⟨?_, checked_of_fit hs fit⟩
    unfold E2hsBridge.number
    rw [hs.lib]
    exact ⟨hlo, hhi⟩
  unfold FileBridge.started at hdue
  obtain ⟨task, htask, hte⟩ := List.mem_filterMap.mp hdue
  have htt : task.tuple = t := by
    split at hte
    · exact Option.some.inj hte
    · cases hte
  subst htt
  have hall : ∀ key v, ContentOf n.lib task.tuple key v → get n s'.store key = some v := by
    intro key v hkv
    have hmem := (contentOf_iff env task.tuple key v).mpr (by rw [hs.lib]; exact hkv)
    rw [← (h4 task htask).contents] at hmem
    obtain ⟨c, hc, hcv⟩ := List.mem_map.mp hmem
    obtain ⟨p, hp, hk, hv⟩ := hb task htask fit c hc
    simp only [Prod.mk.injEq, Option.some.injEq] at hcv
    rw [← hcv.1, ← hcv.2, ← hk, ← hv]
    exact h2 p hp
  obtain ⟨h6, h7⟩ := C96_answered n hf summaries task.tuple fit s' api ho (hall _ _ .body)
  exact ⟨h6 (hall _ _ .byHash), h7 (hall _ _ .byNumber)⟩

end Bridge

end Verif.Props

namespace Verif.ArchiveFlow
open Verif Verif.ContentKey Verif.HistoryValue Verif.HistoryNode Verif.Props.ArchiveFlow Verif.Props
open Verif.HeaderValidator (HeaderProof Summary)
open Verif.Archive (Codec)

variable {Tx Rc Wd : Type}

/-- The file of an epoch that the generator made holds the blocks of the chain, and they fit. -/
theorem generated_file {n : Node ExecBuilder.Header Tx Rc Wd} {env : E2hsBridge.Env ExecBuilder.Header Tx Rc Wd}
    (hs : SameChain n env) {c : E2hsSpec.Chain Tx Rc Wd} {summaries : List Summary} {index : Nat}
    {i : E2hsGen.Inputs Tx Rc Wd} (hg : Generated env c summaries index i) (hsize : Sizes n.lib c)
    (hh : Codec.Lossless env.codecs.headerWithProof) (hb : Codec.Lossless env.codecs.body)
    (hr : Codec.Lossless env.codecs.receipts) :
    ∃ ts, FileBridge.File env index ts ∧ FileBridge.OwnBlocks env index ts ∧ ts.length = 8192 ∧
      ∀ k < 8192, ∃ p, ts[k]? = some ⟨(c.header (index * 8192 + k), p), c.body (index * 8192 + k), c.receipts (index * 8192 + k)⟩ ∧
        (c.header (index * 8192 + k)).number.toNat = index * 8192 + k ∧
        Fit n summaries ⟨(c.header (index * 8192 + k), p), c.body (index * 8192 + k), c.receipts (index * 8192 + k)⟩ := by
  obtain ⟨hw, ⟨fuel, bytes, epoch, name, hfuel, hrun, hdown⟩, hsum, g1, g2, g3, g4, g5, hforks⟩ := hg
  rw [← g5] at hh hb hr
  obtain ⟨bytes', name', hrun', ts, bi, hlen, hdes, hts⟩ := C71_complete_partial i c index hw hh hb hr fuel hfuel
  rw [hrun] at hrun'
  simp only [Option.some.injEq, Prod.mk.injEq, E2store.Res.ok.injEq, and_true] at hrun'
  obtain ⟨rfl, rfl, rfl⟩ := hrun'
  obtain ⟨_, _, _, sums, ts', bi', last, hfrom, _, hdes', _, hgood, _⟩ := C71_file i hh hb hr
    (fun l hl => by obtain ⟨l', h1, _, h2⟩ := hw.latest; rw [hl] at h1; cases h1; exact h2) fuel index false false bytes _ name hrun
  rw [hdes] at hdes'
  simp only [E2store.Res.ok.injEq, Archive.E2hs.mk.injEq, true_and] at hdes'
  obtain ⟨rfl, rfl⟩ := hdes'
  have hpre : sums <+: summaries := by
    rcases hfrom with rfl | ⟨e, era, h1, h2⟩
    · exact List.nil_prefix
    · exact hsum e era sums h1 h2
  have hiter := iterTuples_of_deserialize hdes
  rw [g5] at hiter
  refine ⟨ts, ⟨bytes, hdown, hiter⟩, ?_, hlen, ?_⟩
  · intro t ht
    obtain ⟨k, hk⟩ := List.getElem?_of_mem ht
    have hk' : k < 8192 := by rw [← hlen]; exact (List.getElem?_eq_some_iff.mp hk).1
    have := (hgood k t hk).number
    unfold E2hsBridge.number
    rw [← g1]
    show t.headerWithProof.1.number.toNat / 8192 = index
    omega
  · intro k hk
    obtain ⟨p, hp⟩ := hts k hk
    have good := hgood k _ hp
    have hnum := good.number
    simp only at hnum
    have hlib : n.lib = i.lib.lib := by rw [g1, hs.lib]
    have hacc : (HeaderValidator.validate n.H n.net n.trusted [] (fun _ => some summaries)
        (n.lib.hdr (c.header (index * 8192 + k))) p).1 = .accept := by
      rw [hlib, ← hs.H, ← hs.net, ← hs.trusted, ← g2, ← g3, ← g4]
      exact validate_mono hpre _ _ good.proof
    refine ⟨p, hp, hnum, ?_, hacc, ?_, ?_, ?_, ?_, hsize.uncles _, hsize.header _, hsize.body _, hsize.count _, hsize.receipts _⟩
    · refine kind_of_accept (by rw [← hs.net, ← g3]; exact hforks.order) ?_ hacc
      rw [hlib, ← hs.net, ← g3]
      intro hlt
      have : index * 8192 + k < i.net.parisBlock.toNat := by rw [← hnum]; exact hlt
      exact hforks.before _ this
    · rw [hlib]; exact good.transactions.symm
    · rw [hlib]; exact good.ommers.symm
    · rw [hlib]; exact good.withdrawals
    · rw [hlib]; exact good.receipts.symm

end Verif.ArchiveFlow

namespace Verif.Props
open Verif Verif.ContentKey Verif.HistoryValue Verif.HistoryNode Verif.Props.ArchiveFlow Verif.ArchiveFlow
open Verif.HeaderValidator (HeaderProof Summary)
open Verif.EthRpc (getBlock)
open Verif.Archive (Codec)

/-- From honest archives to the answers: if every file of the range was made by the generator from honest archives of the
chain, and what the bridge served came to a node, then its endpoints answer every block number of the range with the block of
the chain. -/
theorem C96_chain {Tx Rc Wd P : Type} (n : Node ExecBuilder.Header Tx Rc Wd) (hf : n.lib.Faithful) (summaries : List Summary)
    (env : E2hsBridge.Env ExecBuilder.Header Tx Rc Wd) (hs : SameChain n env) (range : E2hsBridge.BlockRange) (files : List Nat)
    (order : List E2hsBridge.Part → List E2hsBridge.Part) (hord : ∀ l, (order l).Perm l) (stop : Nat)
    (hend : FileBridge.EndsAt range files stop) (hstop : stop + 8192 < 2 ^ 64)
    (c : E2hsSpec.Chain Tx Rc Wd) (hsize : Sizes n.lib c)
    (hh : Codec.Lossless env.codecs.headerWithProof) (hb : Codec.Lossless env.codecs.body)
    (hr : Codec.Lossless env.codecs.receipts)
    (hgen : ∀ e, range.start / 8192 ≤ e → e ≤ stop / 8192 → ∃ i, Generated env c summaries e i)
    (b : E2hsBridge.State ExecBuilder.Header Tx Rc Wd P) (hreach : FileBridge.Reachable env range files order b)
    (hm : b.main = .finished) (s : HistoryNode.State) (ps : List Parcel) (hd : Delivery n summaries s ps)
    (hbr : Brought n summaries b ps) :
    ∃ s', run n s (feed s.held.length ps) = .ok s' ∧ ∀ api, On n s' api → ∀ k, range.start ≤ k → k ≤ stop →
      getBlock api (.number (UInt64.ofNat k)) false = .ok (rpcBlock n.lib (c.header k) (c.body k)) ∧
      getBlock api (.hash (n.lib.keccak (n.lib.header.enc (c.header k)))) false =
        .ok (rpcBlock n.lib (c.header k) (c.body k)) := by
  obtain ⟨s', h1, h2⟩ := C96_archive n hf summaries env hs range files order hord stop hend hstop b hreach hm s ps hd hbr
  refine ⟨s', h1, fun api ho k hlo hhi => ?_⟩
  have e1 : range.start / 8192 ≤ k / 8192 := Nat.div_le_div_right hlo
  have e2 : k / 8192 ≤ stop / 8192 := Nat.div_le_div_right hhi
  obtain ⟨i, hg⟩ := hgen _ e1 e2
  obtain ⟨ts, h3, h4, _, h5⟩ := generated_file hs hg hsize hh hb hr
  obtain ⟨p, h6, h7, h8⟩ := h5 (k % 8192) (Nat.mod_lt _ (by decide))
  have hk : k / 8192 * 8192 + k % 8192 = k := by omega
  rw [hk] at h6 h7 h8
  have hlib : n.lib = i.lib.lib := by rw [hg.lib, hs.lib]
  have hview : (n.lib.view (c.header k)).number = (c.header k).number := by rw [hlib]; rfl
  obtain ⟨h9, h10⟩ := h2 api ho _ ts e1 e2 h3 h4 _ (List.mem_of_getElem? h6) h8
    (by simp only [hview, h7]; exact hlo) (by simp only [hview, h7]; exact hhi)
  refine ⟨?_, h9⟩
  have : UInt64.ofNat k = (c.header k).number := by
    apply UInt64.toNat_inj.mp
    rw [UInt64.toNat_ofNat', Nat.mod_eq_of_lt (by omega), h7]
  rw [this, ← hview]
  exact h10

end Verif.Props

namespace Verif.ArchiveFlowExample
open Verif Verif.ContentKey Verif.HistoryValue Verif.HistoryNode Verif.Props Verif.Props.ArchiveFlow
open Verif.HeaderValidator (HeaderProof Summary)
open Verif.E2hsBridge (Tuple)
open Verif.Archive (Codec)

section General
variable {Hd Tx Rc Wd : Type}

/-- A peer sends everything of a block in the order of a bridge; `lookup` tells if the node looks up the header for the body. -/
def parcels (lib : Lib Hd Tx Rc Wd) (summaries : List Summary) (t : Tuple Hd Tx Rc Wd) (lookup : Bool) : List Parcel :=
  [⟨.headerByHash (hashOf lib t), headerBytes lib t, fun _ => some summaries, [], [], false⟩,
    ⟨.headerByNumber (lib.view t.headerWithProof.1).number, headerBytes lib t, fun _ => some summaries, [], [], false⟩,
    ⟨.blockBody (hashOf lib t), bodyBytes lib t, fun _ => some summaries, [], headerBytes lib t, lookup⟩,
    ⟨.blockReceipts (hashOf lib t), receiptsBytes lib t, fun _ => some summaries, [], headerBytes lib t, false⟩]

/-- The id of a key is its selector, so the contents of one block have different ids. -/
def idOf (key : Bytes) : Id := BitVec.ofNat 256 (key.headD 0).toNat

/-- An empty store with just enough room. -/
def cfg (ps : List Parcel) : Store.Config := ⟨0, weight ⟨0, 0, 0, 750⟩ ps, 2 ^ 256 - 1, 750⟩
def empty : Store.Store := ⟨[], 2 ^ 256 - 1, 100, 0, 0⟩

theorem tells (summaries : List Summary) : Tells summaries fun _ => some summaries :=
  ⟨fun _ _ h => by cases h; exact List.prefix_refl _, fun _ _ _ h => ⟨_, rfl, h⟩⟩

theorem delivery (n : Node Hd Tx Rc Wd) (hid : n.db.idOf = idOf) (summaries : List Summary) (t : Tuple Hd Tx Rc Wd)
    (fit : Fit n summaries t) (lookup : Bool) :
    Delivery n summaries ⟨(cfg (parcels n.lib summaries t lookup), empty), [], [], []⟩ (parcels n.lib summaries t lookup) := by
  refine ⟨?_, ?_, List.nil_prefix, ?_, ?_, ?_, ?_, ?_⟩
  · intro p hp
    refine ⟨t, fit, ?_⟩
    simp only [parcels, List.mem_cons, List.not_mem_nil, or_false] at hp
    rcases hp with rfl | rfl | rfl | rfl
    · exact ⟨.byHash, fun _ h => by cases h⟩
    · exact ⟨.byNumber, fun _ h => by cases h⟩
    · exact ⟨.body, fun _ _ => rfl⟩
    · exact ⟨.receipts, fun _ _ => rfl⟩
  · intro pre p post k hps hn _
    right
    have hp : p ∈ parcels n.lib summaries t lookup := by rw [hps]; simp
    refine ⟨⟨.headerByHash (hashOf n.lib t), headerBytes n.lib t, fun _ => some summaries, [], [], false⟩, ?_, ?_⟩
    · cases pre with
      | nil =>
        simp only [parcels, List.nil_append, List.cons.injEq] at hps
        rw [← hps.1] at hn
        cases hn
      | cons q pre =>
        simp only [parcels, List.cons_append, List.cons.injEq] at hps
        rw [← hps.1]
        exact List.mem_cons_self
    · simp only [parcels, List.mem_cons, List.not_mem_nil, or_false] at hp
      rcases hp with rfl | rfl | rfl | rfl
      · cases hn
      · cases hn
      · cases hn; exact ⟨rfl, rfl⟩
      · cases hn; exact ⟨rfl, rfl⟩
  · intro p hp
    simp only [parcels, List.mem_cons, List.not_mem_nil, or_false] at hp
    rcases hp with rfl | rfl | rfl | rfl <;> exact tells _
  · simp only [Store.Store.usage, empty, cfg, weight, Nat.zero_mul, Nat.zero_add]
    exact Nat.le_refl _
  · intro p hp
    simp only [empty]
    exact Nat.le_pred_of_lt (xorDistance_lt _ _)
  · intro p hp
    simp only [HistoryNode.get, empty, Store.lookupValue]
    rfl
  · rw [hid]
    show [idOf (Legacy.toBytes _), idOf (Legacy.toBytes _), idOf (Legacy.toBytes _), idOf (Legacy.toBytes _)].Nodup
    have h1 : ∀ k, idOf (Legacy.headerByHash k).toBytes = 0 := fun k => rfl
    have h2 : ∀ k, idOf (Legacy.headerByNumber k).toBytes = 3 := fun k => rfl
    have h3 : ∀ k, idOf (Legacy.blockBody k).toBytes = 1 := fun k => rfl
    have h4 : ∀ k, idOf (Legacy.blockReceipts k).toBytes = 2 := fun k => rfl
    rw [h1, h2, h3, h4]
    decide

/-- With a range of one block, these parcels are all that the bridge serves. -/
theorem brought {P : Type} (n : Node Hd Tx Rc Wd) (env : E2hsBridge.Env Hd Tx Rc Wd) (hs : SameChain n env)
    (summaries : List Summary) (k : Nat) (hk : k + 8192 < 2 ^ 64) (ts : List (Tuple Hd Tx Rc Wd))
    (hf : FileBridge.File env (k / 8192) ts) (ho : FileBridge.OwnBlocks env (k / 8192) ts) (t : Tuple Hd Tx Rc Wd)
    (huniq : ∀ t' ∈ ts, (n.lib.view t'.headerWithProof.1).number.toNat = k → t' = t) (lookup : Bool)
    (b : E2hsBridge.State Hd Tx Rc Wd P) (hr : FileBridge.Reachable env ⟨k, some k⟩ [] id b) (hm : b.main = .finished) :
    Brought n summaries b (parcels n.lib summaries t lookup) := by
  have hord : ∀ l : List E2hsBridge.Part, (id l).Perm l := fun l => List.Perm.refl l
  have hend : FileBridge.EndsAt ⟨k, some k⟩ [] k := .inl rfl
  obtain ⟨h1, h2⟩ := C78_complete_partial env ⟨k, some k⟩ [] id hord k hend hk b hr hm
  obtain ⟨ts', hf', h3⟩ := h1 (k / 8192) (Nat.le_refl _) (Nat.le_refl _)
  cases FileBridge.file_unique hf' hf
  intro task htask fit c hc
  obtain ⟨⟨g1, g2⟩, _⟩ := C78_offered env ⟨k, some k⟩ [] id hord k hend hk b hr task htask
  have hmem : task.tuple ∈ FileBridge.started b (k / 8192) := by
    unfold FileBridge.started
    rw [List.mem_filterMap]
    exact ⟨task, htask, if_pos (by simp only at g1; omega)⟩
  rw [h3 ho] at hmem
  unfold FileBridge.due at hmem
  rw [List.mem_filter] at hmem
  obtain ⟨m1, m2⟩ := hmem
  rw [@decide_eq_true_eq] at m2
  replace m2 := m2.1
  simp only [E2hsBridge.number, hs.lib] at m2
  have ht : task.tuple = t := huniq _ m1 (by omega)
  have hcv : (c.key, some c.value) ∈ FileBridge.contentsOf env task.tuple := by
    rw [← (h2 task htask).contents]
    exact List.mem_map_of_mem hc
  rw [ArchiveFlow.contentOf_iff, ht, hs.lib] at hcv
  unfold parcels
  generalize c.key = key, c.value = value at hcv ⊢
  cases hcv with
  | byHash => exact ⟨_, List.mem_cons_self, rfl, rfl⟩
  | byNumber => exact ⟨_, List.mem_cons_of_mem _ List.mem_cons_self, rfl, rfl⟩
  | body => exact ⟨_, List.mem_cons_of_mem _ (List.mem_cons_of_mem _ List.mem_cons_self), rfl, rfl⟩
  | receipts =>
    exact ⟨_, List.mem_cons_of_mem _ (List.mem_cons_of_mem _ (List.mem_cons_of_mem _ List.mem_cons_self)), rfl, rfl⟩

/-- A bridge can finish such a range when all blocks of the file fit. -/
theorem finishes (n : Node Hd Tx Rc Wd) (env : E2hsBridge.Env Hd Tx Rc Wd) (hs : SameChain n env)
    (summaries : List Summary) (k : Nat) (hk : k + 8192 < 2 ^ 64) (ts : List (Tuple Hd Tx Rc Wd))
    (hf : FileBridge.File env (k / 8192) ts) (hl : 0 < env.offerLimit) (hfit : ∀ t ∈ ts, Fit n summaries t) :
    ∃ b : E2hsBridge.State Hd Tx Rc Wd Nat, FileBridge.Reachable env ⟨k, some k⟩ [] id b ∧ b.main = .finished := by
  have hord : ∀ l : List E2hsBridge.Part, (id l).Perm l := fun l => List.Perm.refl l
  obtain ⟨es, he⟩ := (C78_no_panic env ⟨k, some k⟩ [] id hord k (.inl rfl) hk
    (fun e h1 h2 => by
      have : e = k / 8192 := by simp only at h1; omega
      subst this
      refine ⟨ts, hf, fun t ht h1 h2 cache source => ?_⟩
      rw [(ArchiveFlow.checked_of_fit hs (hfit t ht)).header h1 h2]
      decide)
    (E2hsBridge.launch env ⟨k, some k⟩ [] id : E2hsBridge.State Hd Tx Rc Wd Nat) ⟨[], rfl⟩).2 hl
  exact ⟨_, ⟨es, rfl⟩, he⟩

end General

/-! The world of C71: the file of epoch 2100 made from it is served to a bridge, and a node gets what the bridge offers. -/

open Verif.Props.E2hsGenExample in
section
noncomputable def all : List Summary := summaries 800

noncomputable def node : Node ExecBuilder.Header Bytes Bytes Bytes :=
  ⟨lib.lib, H, (world 2100).net, (world 2100).trusted, { StoreExample.env with idOf := idOf }⟩

noncomputable def env (bytes : Bytes) : E2hsBridge.Env ExecBuilder.Header Bytes Bytes Bytes where
  lib := lib.lib
  H := H
  net := (world 2100).net
  trusted := (world 2100).trusted
  codecs := (world 2100).codecs
  offerLimit := 5
  download e := if e = 2100 then some bytes else none

theorem faithful : node.lib.Faithful :=
  ⟨wire_faithful _, wire_faithful _, wire_faithful _, wire_faithful _, wire_faithful _⟩

theorem same (bytes : Bytes) : SameChain node (env bytes) := ⟨rfl, rfl, rfl, rfl⟩

theorem summaries_prefix (e : Nat) (he : e ≤ 800) : summaries e <+: all := by
  unfold all summaries
  obtain ⟨d, hd⟩ : ∃ d, 800 - 758 = (e - 758) + d := ⟨800 - 758 - (e - 758), by omega⟩
  rw [hd, ← List.range'_append_1, List.map_append]
  exact List.prefix_append ..

theorem generated : ∃ bytes, Generated (env bytes) chain all 2100 (world 2100) := by
  have hw := honest 2100 (by decide) three2100
  obtain ⟨bytes, name, h, _⟩ := C71_complete_partial (world 2100) chain 2100 hw (codec_lossless _) (codec_lossless _)
    (codec_lossless _) 3 (by omega)
  refine ⟨bytes, hw, ⟨3, bytes, _, name, by decide, h, by simp [env]⟩, ?_, rfl, rfl, rfl, rfl, rfl, ⟨by decide, ?_⟩⟩
  · intro e er l he hl
    have he : (if e ≤ 800 then E2store.Res.ok (era e) else .err) = .ok er := he
    split at he
    · rename_i hle
      rw [← E2store.Res.ok.inj he, era_summaries] at hl
      rw [← Option.some.inj hl]
      exact summaries_prefix e hle
    · cases he
  · intro k hk
    have hk : k < 15537394 := hk
    show (if k < 17052914 then (1 : UInt64) else 2) < 2
    rw [if_pos (by omega)]
    decide

theorem sizes : Sizes node.lib chain := by
  refine ⟨fun n => ?_, fun n => ?_, fun n => by show (1 : Nat) ≤ _; decide, fun n => ?_, fun n _ => rfl⟩
  · show (Enc.enc (headerFields (header n))).length ≤ 2048
    unfold headerFields header
    simp only
    split <;> simp [Enc.enc, encList]
  · show (encodeBody node.lib (body n)).length < 2 ^ 32
    unfold body
    by_cases h : n < 17052914
    · rw [if_pos h]; decide +kernel
    · rw [if_neg h]; decide +kernel
  · show (encodeReceipts node.lib [[7]]).length < 2 ^ 32
    decide +kernel

/-- Everything of `C96_chain` for block 17203205: the bridge finishes, the node gets what it offers, and answers. -/
example : ∃ bytes p, ∃ b : E2hsBridge.State ExecBuilder.Header Bytes Bytes Bytes Nat,
    FileBridge.Reachable (env bytes) ⟨17203205, some 17203205⟩ [] id b ∧ b.main = .finished ∧
    ∃ ps, ps = parcels node.lib all ⟨(header 17203205, p), body 17203205, [[7]]⟩ true ∧
    ∃ s', run node ⟨(cfg ps, empty), [], [], []⟩ (feed 0 ps) = .ok s' ∧ ∀ api, On node s' api →
      EthRpc.getBlock api (.number 17203205) false = .ok (rpcBlock node.lib (header 17203205) (body 17203205)) := by
  obtain ⟨bytes, hg⟩ := generated
  obtain ⟨ts, h1, h2, h3, h4⟩ := ArchiveFlow.generated_file (same bytes) hg sizes (codec_lossless _) (codec_lossless _)
    (codec_lossless _)
  have hnum : ∀ t ∈ ts, (node.lib.view t.headerWithProof.1).number.toNat = 17203205 → ts[5]? = some t := by
    intro t ht hn
    obtain ⟨k, hk⟩ := List.getElem?_of_mem ht
    have hk' : k < 8192 := by rw [← h3]; exact (List.getElem?_eq_some_iff.mp hk).1
    obtain ⟨p, g1, g2, g3⟩ := h4 k hk'
    rw [hk] at g1
    cases g1
    have : (header (2100 * 8192 + k)).number.toNat = 17203205 := hn
    have g2 : (header (2100 * 8192 + k)).number.toNat = 2100 * 8192 + k := g2
    have : k = 5 := by omega
    rw [← this]; exact hk
  obtain ⟨p, g1, g2, g3⟩ := h4 5 (by decide)
  obtain ⟨b, hr, hm⟩ := finishes node (env bytes) (same bytes) all 17203205 (by decide) ts h1 (show 0 < 5 by decide) fun t ht => by
    obtain ⟨k, hk⟩ := List.getElem?_of_mem ht
    have hk' : k < 8192 := by rw [← h3]; exact (List.getElem?_eq_some_iff.mp hk).1
    obtain ⟨p, e1, e2, e3⟩ := h4 k hk'
    rw [hk] at e1
    cases e1
    exact e3
  have hbr := brought node (env bytes) (same bytes) all 17203205 (by decide) ts h1 h2
    ⟨(header 17203205, p), body 17203205, [[7]]⟩
    (fun t ht hn => by have := hnum t ht hn; rw [g1] at this; cases this; rfl) true b hr hm
  refine ⟨bytes, p, b, hr, hm, _, rfl, ?_⟩
  obtain ⟨s', h5, h6⟩ := C96_chain node faithful all (env bytes) (same bytes) ⟨17203205, some 17203205⟩ [] id
    (fun l => List.Perm.refl l) 17203205 (.inl rfl) (by decide) chain sizes (codec_lossless _) (codec_lossless _)
    (codec_lossless _)
    (fun e e1 e2 => by
      have : e = 2100 := by simp only at e1; omega
      subst this
      exact ⟨_, hg⟩) b hr hm _ _ (delivery node rfl all _ g3 true) hbr
  exact ⟨s', h5, fun api ho => (h6 api ho 17203205 (Nat.le_refl _) (Nat.le_refl _)).1⟩

/-- The endpoints of a node whose lookups give what it has stored. -/
example (s : HistoryNode.State) (evm : EvmState.Env) (root : ExecBuilder.Header → Id) :
    On node s ⟨node.lib, node.net, evm, root, fun key => HistoryNode.get node s.store key, none⟩ :=
  ⟨rfl, rfl, fun _ _ h => h⟩

end

end Verif.ArchiveFlowExample
