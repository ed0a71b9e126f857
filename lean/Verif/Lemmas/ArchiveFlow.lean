import Verif.Props.ArchiveFlowSpec
import Verif.Props.HistoryNode
import Verif.Lemmas.StateNodeFeed

/-! # Lemmas about blocks on their way from archive files to a node -/

namespace Verif.ArchiveFlow
open Verif Verif.ContentKey Verif.HistoryValue Verif.HistoryNode Verif.Props Verif.Props.ArchiveFlow
open Verif.HistoryValidator hiding run Env
open Verif.HeaderValidator (HeaderProof Summary decodedKind)
open Verif.E2hsBridge (Tuple)

variable {Hd Tx Rc Wd : Type}

theorem prefix_getElem? {α : Type} {a b : List α} (h : a <+: b) {i : Nat} (hi : i < a.length) : a[i]? = b[i]? := by
  obtain ⟨c, rfl⟩ := h
  rw [List.getElem?_append_left hi]

/-- A summary that the whole list has is found, and the cache stays a beginning of it. -/
theorem getSummary_of {summaries cache : List Summary} {source : Nat → Option (List Summary)} (hc : cache <+: summaries)
    (ht : Tells summaries source) (slot : Nat) :
    (HeaderValidator.getSummary cache source slot).2 <+: summaries ∧
      ∀ x, (HeaderValidator.getSummary [] (fun _ => some summaries) slot).1 = some x →
        (HeaderValidator.getSummary cache source slot).1 = some x := by
  unfold HeaderValidator.getSummary
  cases hi : ChainHead.historicalSummaryIndex slot with
  | none => exact ⟨hc, by simp⟩
  | some i =>
    simp only [List.getElem?_nil]
    by_cases hl : i < cache.length
    · have h1 := prefix_getElem? hc hl
      rw [List.getElem?_eq_getElem hl] at h1 ⊢
      simp only
      refine ⟨hc, fun x hx => ?_⟩
      rw [← h1] at hx
      exact hx
    · rw [List.getElem?_eq_none (by omega)]
      simp only
      cases hs : source (slot / 32) with
      | none =>
        refine ⟨hc, fun x hx => ?_⟩
        by_cases hlen : i < summaries.length
        · obtain ⟨l, h1, _⟩ := ht.reaches slot i hi hlen
          rw [hs] at h1; cases h1
        · rw [List.getElem?_eq_none (by omega)] at hx; cases hx
      | some l =>
        simp only
        have hp := ht.part _ _ hs
        by_cases hll : i < l.length
        · have h1 := prefix_getElem? hp hll
          rw [List.getElem?_eq_getElem hll] at h1 ⊢
          refine ⟨hp, fun x hx => ?_⟩
          rw [← h1] at hx
          exact hx
        · rw [List.getElem?_eq_none (by omega)]
          refine ⟨hc, fun x hx => ?_⟩
          by_cases hlen : i < summaries.length
          · obtain ⟨l', h1, h2⟩ := ht.reaches slot i hi hlen
            rw [hs] at h1; cases h1
            exact absurd h2 hll
          · rw [List.getElem?_eq_none (by omega)] at hx; cases hx

theorem validate_of {H : Id → Id → Id} {net : HeaderValidator.Net} {t : HeaderValidator.Trusted} {summaries cache : List Summary}
    {source : Nat → Option (List Summary)} (hc : cache <+: summaries) (ht : Tells summaries source) (h : HeaderValidator.Header)
    (p : HeaderProof) :
    (HeaderValidator.validate H net t cache source h p).2 <+: summaries ∧
      ((HeaderValidator.validate H net t [] (fun _ => some summaries) h p).1 = .accept →
        (HeaderValidator.validate H net t cache source h p).1 = .accept) := by
  cases p with
  | hashes p => exact ⟨hc, id⟩
  | roots p => exact ⟨hc, id⟩
  | capella p =>
    obtain ⟨h1, h2⟩ := getSummary_of hc ht p.slot.toNat
    simp only [HeaderValidator.validate, HeaderValidator.verifyCapellaToDeneb]
    split
    · exact ⟨hc, id⟩
    · split
      · exact ⟨hc, id⟩
      · split
        · exact ⟨hc, id⟩
        · refine ⟨h1, fun ha => ?_⟩
          simp only at ha ⊢
          cases hg : (HeaderValidator.getSummary [] (fun _ => some summaries) p.slot.toNat).1 with
          | none => rw [hg] at ha; simp [HeaderValidator.verifySummaries] at ha
          | some x => rw [h2 x hg]; rwa [hg] at ha
  | deneb p =>
    obtain ⟨h1, h2⟩ := getSummary_of hc ht p.slot.toNat
    simp only [HeaderValidator.validate, HeaderValidator.verifyPostDeneb]
    split
    · exact ⟨hc, id⟩
    · split
      · exact ⟨hc, id⟩
      · refine ⟨h1, fun ha => ?_⟩
        simp only at ha ⊢
        cases hg : (HeaderValidator.getSummary [] (fun _ => some summaries) p.slot.toNat).1 with
        | none => rw [hg] at ha; simp [HeaderValidator.verifySummaries] at ha
        | some x => rw [h2 x hg]; rwa [hg] at ha

theorem validateContent_cache {n : Node Hd Tx Rc Wd} {s : HistoryNode.State} {summaries : List Summary} {m : Moment}
    (hc : s.cache <+: summaries) (ht : Tells summaries m.source) (key : Legacy) (bs : Bytes) :
    (validateContent (env n s m) s.cache key bs).2 <+: summaries := by
  unfold validateContent
  cases key with
  | headerByHash k =>
    simp only
    split
    · exact hc
    · split
      · exact hc
      · exact (validate_of hc ht _ _).1
  | headerByNumber k =>
    simp only
    split
    · exact hc
    · split
      · exact hc
      · exact (validate_of hc ht _ _).1
  | blockBody k =>
    simp only
    split
    · exact hc
    · split <;> exact hc
  | blockReceipts k =>
    simp only
    split
    · exact hc
    · split <;> exact hc
  | ephemeralFind _ _ => exact hc
  | ephemeralOffer _ => exact hc

section Accept
variable {n : Node Hd Tx Rc Wd} (hf : n.lib.Faithful) {summaries : List Summary} {t : Tuple Hd Tx Rc Wd}
  (fit : Fit n summaries t) {s : HistoryNode.State} {m : Moment} (hc : s.cache <+: summaries) (ht : Tells summaries m.source)
include hf fit

theorem headerBytes_decode (k : Id) : Value.decode n.lib n.net (.headerByHash k) (headerBytes n.lib t) =
    some (.header t.headerWithProof.1 t.headerWithProof.2 : Value Hd Tx Rc Wd) := by
  simp [Value.decode, headerBytes, hwp_encode hf fit.headerSize fit.kind]

theorem headerBytes_decode_number (k : UInt64) : Value.decode n.lib n.net (.headerByNumber k) (headerBytes n.lib t) =
    some (.header t.headerWithProof.1 t.headerWithProof.2 : Value Hd Tx Rc Wd) := by
  simp [Value.decode, headerBytes, hwp_encode hf fit.headerSize fit.kind]

include hc ht

theorem accept_byHash : Accepts (env n s m) s.cache (.headerByHash (hashOf n.lib t)) (headerBytes n.lib t) :=
  (C58_by_hash ..).mpr ⟨_, _, headerBytes_decode hf fit _, rfl, (validate_of hc ht _ _).2 fit.proof⟩

theorem accept_byNumber :
    Accepts (env n s m) s.cache (.headerByNumber (n.lib.view t.headerWithProof.1).number) (headerBytes n.lib t) :=
  (C58_by_number ..).mpr ⟨_, _, headerBytes_decode_number hf fit _, rfl, (validate_of hc ht _ _).2 fit.proof⟩

omit hc ht in
theorem accept_body (hm : m.header (hashOf n.lib t) = some (headerBytes n.lib t))
    (ha : (hashOf n.lib t, headerBytes n.lib t) ∈ s.answered) :
    Accepts (env n s m) s.cache (.blockBody (hashOf n.lib t)) (bodyBytes n.lib t) :=
  (C58_body ..).mpr ⟨t.body, headerBytes n.lib t, _, _, C57_round_trip hf (.body _ _ fit.uncles) rfl fit.bodySize,
    by simp [env, hm, Option.filter, ha], headerBytes_decode hf fit _, fit.ommers, fit.transactions, fit.withdrawals⟩

omit hc ht in
theorem accept_receipts (hm : m.header (hashOf n.lib t) = some (headerBytes n.lib t))
    (ha : (hashOf n.lib t, headerBytes n.lib t) ∈ s.answered) :
    Accepts (env n s m) s.cache (.blockReceipts (hashOf n.lib t)) (receiptsBytes n.lib t) :=
  (C58_receipts ..).mpr ⟨t.receipts, headerBytes n.lib t, _, _,
    C57_round_trip hf (.receipts _ _ fit.receiptsCount) rfl fit.receiptsSize,
    by simp [env, hm, Option.filter, ha], headerBytes_decode hf fit _, fit.receipts⟩

end Accept

theorem get_inserted (n : Node Hd Tx Rc Wd) (cfg : Store.Config) (s : Store.Store) (key key' : Legacy) (value : Bytes) :
    HistoryNode.get n (cfg, Store.inserted n.db cfg s key.toBytes value) key' =
      match HistoryNode.get n (cfg, s) key' with
      | some v => some v
      | none => if n.db.idOf key'.toBytes = n.db.idOf key.toBytes then some value else none := by
  unfold HistoryNode.get Store.lookupValue
  simp only [Store.inserted]
  rw [Store.lookup_insertRow]
  cases Store.lookup s.rows (n.db.idOf key'.toBytes) with
  | some kv => rfl
  | none =>
    simp only [Store.newRow, Option.map_none]
    split <;> simp [*]

/-- Content that a node accepts is stored when there is room. -/
theorem kept_one (n : Node Hd Tx Rc Wd) (s : HistoryNode.State) {summaries : List Summary} (key : Legacy) (bs : Bytes)
    (m : Moment) (sps : List Store.Speed) (hc : s.cache <+: summaries) (ht : Tells summaries m.source)
    (ha : Accepts (env n s m) s.cache key bs)
    (hr : xorDistance s.store.1.node (n.db.idOf key.toBytes) ≤ s.store.2.radius)
    (hroom : s.store.2.usage s.store.1 + (32 + key.toBytes.length + bs.length + s.store.1.extra) ≤ s.store.1.capacity) :
    ∃ s', run n s [.arrived key bs m, .keep s.held.length sps] = .ok s' ∧
      s'.held = s.held ++ [(key, bs)] ∧ s'.cache <+: summaries ∧ s'.store.1 = s.store.1 ∧
      s'.store.2.radius = s.store.2.radius ∧
      s'.store.2.usage s.store.1 ≤ s.store.2.usage s.store.1 + (32 + key.toBytes.length + bs.length + s.store.1.extra) ∧
      ∀ key', get n s'.store key' =
        match get n s.store key' with
        | some v => some v
        | none => if n.db.idOf key'.toBytes = n.db.idOf key.toBytes then some bs else none := by
  have hcs : Store.contentSize key.toBytes bs ≤ 32 + key.toBytes.length + bs.length := by
    unfold Store.contentSize; omega
  obtain ⟨h1, h2⟩ := StateNode.insert_room n.db s.store.1 sps s.store.2 key.toBytes bs hr (by omega)
  have h3 : Store.step n.db s.store (.insert sps key.toBytes bs) =
      .ok (s.store.1, Store.inserted n.db s.store.1 s.store.2 key.toBytes bs) := by
    simp only [Store.step, h1]
  have hcache := validateContent_cache (n := n) hc ht key bs
  unfold Accepts at ha
  refine ⟨⟨(s.store.1, Store.inserted n.db s.store.1 s.store.2 key.toBytes bs), (validateContent (env n s m) s.cache key bs).2,
    s.answered, s.held ++ [(key, bs)]⟩, ?_, rfl, hcache, rfl, rfl, ?_, fun key' => get_inserted n _ _ _ _ _⟩
  · simp only [run, HistoryNode.step, ha, if_true]
    rw [List.getElem?_append_right (Nat.le_refl _)]
    simp only [Nat.sub_self, List.getElem?_cons_zero, h3, Except.map]
  · simp only [h2]; omega

/-- What one parcel does. -/
theorem receive_one (n : Node Hd Tx Rc Wd) (hf : n.lib.Faithful) (s : HistoryNode.State) {summaries : List Summary} (p : Parcel)
    {t : Tuple Hd Tx Rc Wd} (fit : Fit n summaries t) (hp : Carries n t p) (hc : s.cache <+: summaries)
    (ht : Tells summaries p.source)
    (hfirst : ∀ k, needs p.key = some k → p.lookup = false → get n s.store (.headerByHash k) = some p.header)
    (hr : xorDistance s.store.1.node (n.db.idOf p.key.toBytes) ≤ s.store.2.radius)
    (hroom : s.store.2.usage s.store.1 + (32 + p.key.toBytes.length + p.content.length + s.store.1.extra) ≤
      s.store.1.capacity) :
    ∃ s', run n s (receive s.held.length p) = .ok s' ∧
      s'.held.length = s.held.length + got p ∧ s'.cache <+: summaries ∧ s'.store.1 = s.store.1 ∧
      s'.store.2.radius = s.store.2.radius ∧
      s'.store.2.usage s.store.1 ≤
        s.store.2.usage s.store.1 + (32 + p.key.toBytes.length + p.content.length + s.store.1.extra) ∧
      ∀ key', get n s'.store key' =
        match get n s.store key' with
        | some v => some v
        | none => if n.db.idOf key'.toBytes = n.db.idOf p.key.toBytes then some p.content else none := by
  obtain ⟨key, content, source, sps, header, lookup⟩ := p
  obtain ⟨hcont, hhead⟩ := hp
  simp only at hcont hhead ht hfirst hr hroom ⊢
  -- the contents for which a header is needed
  have main : ∀ key content, needs key = some (hashOf n.lib t) → header = headerBytes n.lib t →
      (lookup = false → get n s.store (.headerByHash (hashOf n.lib t)) = some header) →
      (∀ s1 : HistoryNode.State, (hashOf n.lib t, headerBytes n.lib t) ∈ s1.answered →
        Accepts (env n s1 ⟨source, fun _ => some header⟩) s1.cache key content) →
      xorDistance s.store.1.node (n.db.idOf key.toBytes) ≤ s.store.2.radius →
      s.store.2.usage s.store.1 + (32 + key.toBytes.length + content.length + s.store.1.extra) ≤ s.store.1.capacity →
      ∃ s', run n s (receive s.held.length ⟨key, content, source, sps, header, lookup⟩) = .ok s' ∧
        s'.held.length = s.held.length + got ⟨key, content, source, sps, header, lookup⟩ ∧ s'.cache <+: summaries ∧
        s'.store.1 = s.store.1 ∧ s'.store.2.radius = s.store.2.radius ∧
        s'.store.2.usage s.store.1 ≤
          s.store.2.usage s.store.1 + (32 + key.toBytes.length + content.length + s.store.1.extra) ∧
        ∀ key', get n s'.store key' =
          match get n s.store key' with
          | some v => some v
          | none => if n.db.idOf key'.toBytes = n.db.idOf key.toBytes then some content else none := by
    intro key content hk hh hst hacc hr hroom
    cases lookup with
    | false =>
      have hg := hst rfl
      obtain ⟨s', h1, h2, h3⟩ := kept_one n { s with answered := s.answered ++ [(hashOf n.lib t, header)] } key content
        ⟨source, fun _ => some header⟩ sps hc ht (hacc _ (by simp [hh])) hr hroom
      refine ⟨s', ?_, ?_, h3⟩
      · simp only [receive, hk, Bool.false_eq_true, if_false]
        rw [← h1]
        simp only [run, HistoryNode.step, hg]
      · rw [h2]; simp [got]
    | true =>
      have ha : Accepts (env n s ⟨source, fun _ => none⟩) s.cache (.headerByHash (hashOf n.lib t)) header := by
        rw [hh]; exact accept_byHash hf fit hc ht
      have hcache := validateContent_cache (n := n) (m := ⟨source, fun _ => none⟩) hc ht (.headerByHash (hashOf n.lib t)) header
      unfold Accepts at ha
      obtain ⟨s', h1, h2, h3⟩ := kept_one n
        ⟨s.store, (validateContent (env n s ⟨source, fun _ => none⟩) s.cache (.headerByHash (hashOf n.lib t)) header).2,
          s.answered ++ [(hashOf n.lib t, header)], s.held ++ [(.headerByHash (hashOf n.lib t), header)]⟩ key content
        ⟨source, fun _ => some header⟩ sps hcache ht (hacc _ (by simp [hh])) hr hroom
      refine ⟨s', ?_, ?_, h3⟩
      · simp only [receive, hk, if_true]
        rw [← h1]
        simp only [run, HistoryNode.step, ha, if_true]
        rw [List.getElem?_append_right (Nat.le_refl _)]
        simp only [Nat.sub_self, List.getElem?_cons_zero, List.length_append, List.length_cons, List.length_nil]
      · rw [h2]; simp [got, hk]
  cases hcont with
  | byHash =>
    obtain ⟨s', h1, h2, h3⟩ := kept_one n s _ _ ⟨source, fun _ => none⟩ sps hc ht (accept_byHash hf fit hc ht) hr hroom
    exact ⟨s', h1, by rw [h2]; simp [got, needs], h3⟩
  | byNumber =>
    obtain ⟨s', h1, h2, h3⟩ := kept_one n s _ _ ⟨source, fun _ => none⟩ sps hc ht (accept_byNumber hf fit hc ht) hr hroom
    exact ⟨s', h1, by rw [h2]; simp [got, needs], h3⟩
  | body =>
    have hh := hhead _ rfl
    exact main _ _ rfl hh (fun h => hfirst _ rfl h) (fun s1 ha => accept_body hf fit (by simp only [hh]) ha) hr hroom
  | receipts =>
    have hh := hhead _ rfl
    exact main _ _ rfl hh (fun h => hfirst _ rfl h) (fun s1 ha => accept_receipts hf fit (by simp only [hh]) ha) hr hroom

theorem feed_spec (n : Node Hd Tx Rc Wd) (hf : n.lib.Faithful) (summaries : List Summary) (ps : List Parcel)
    (s : HistoryNode.State) (hd : Delivery n summaries s ps) :
    ∃ s', run n s (feed s.held.length ps) = .ok s' ∧ s'.cache <+: summaries ∧
      (∀ p ∈ ps, get n s'.store p.key = some p.content) ∧
      ∀ key v, get n s.store key = some v → get n s'.store key = some v := by
  induction ps generalizing s with
  | nil => exact ⟨s, rfl, hd.cache, by simp, fun _ _ h => h⟩
  | cons p ps ih =>
    obtain ⟨t, fit, hp⟩ := hd.blocks p (List.mem_cons_self ..)
    have hr := hd.room
    have hcap := hr.capacity
    simp only [weight, List.map_cons, List.sum_cons] at hcap
    obtain ⟨s1, h1, h2, h3, h4, h5, h6, h7⟩ := receive_one n hf s p fit hp hd.cache (hd.tells p (List.mem_cons_self ..))
      (fun k hk hl => by
        rcases hd.first [] p ps k rfl hk hl with h | ⟨q, hq, _⟩
        · exact h
        · cases hq)
      (hr.radius p (List.mem_cons_self ..)) (by omega)
    have hids : n.db.idOf p.key.toBytes ∉ ps.map (fun x => n.db.idOf x.key.toBytes) ∧
        (ps.map fun x => n.db.idOf x.key.toBytes).Nodup := List.nodup_cons.mp hr.ids
    have hget1 : get n s1.store p.key = some p.content := by
      rw [h7, hr.fresh p (List.mem_cons_self ..)]; simp
    have hmono : ∀ key v, get n s.store key = some v → get n s1.store key = some v := by
      intro key v hg
      rw [h7, hg]
    obtain ⟨s2, g1, g2, g3, g4⟩ := ih s1 {
      blocks := fun q hq => hd.blocks q (List.mem_cons_of_mem _ hq)
      first := by
        intro pre q post k he hk hl
        rcases hd.first (p :: pre) q post k (by rw [he]; rfl) hk hl with h | ⟨q', hq', h8, h9⟩
        · exact .inl (hmono _ _ h)
        · rcases List.mem_cons.mp hq' with rfl | hq'
          · left; rw [← h8, ← h9]; exact hget1
          · exact .inr ⟨q', hq', h8, h9⟩
      cache := h3
      tells := fun q hq => hd.tells q (List.mem_cons_of_mem _ hq)
      room := by
        refine ⟨?_, fun x hx => ?_, fun x hx => ?_, hids.2⟩
        · rw [h4]; unfold weight; omega
        · rw [h4, h5]; exact hr.radius x (List.mem_cons_of_mem _ hx)
        · rw [h7, hr.fresh x (List.mem_cons_of_mem _ hx)]
          simp only
          rw [if_neg]
          intro he
          exact hids.1 (he ▸ List.mem_map_of_mem (f := fun x : Parcel => n.db.idOf x.key.toBytes) hx) }
    refine ⟨s2, ?_, g2, fun q hq => ?_, fun k v hg => g4 k v (hmono k v hg)⟩
    · simp only [feed]
      rw [← h2]
      exact HistoryNodes.run_append _ _ _ _ _ h1 g1
    · rcases List.mem_cons.mp hq with rfl | hq
      · exact g4 _ _ hget1
      · exact g3 q hq

/-! ## Files and the bridge -/

theorem contentOf_iff (env : E2hsBridge.Env Hd Tx Rc Wd) (t : Tuple Hd Tx Rc Wd) (key : Legacy) (v : Bytes) :
    (key, some v) ∈ FileBridge.contentsOf env t ↔ ContentOf env.lib t key v := by
  constructor
  · intro h
    simp only [FileBridge.contentsOf, List.mem_cons, Prod.mk.injEq, List.not_mem_nil, or_false, Value.encode,
      Option.some.injEq] at h
    rcases h with ⟨rfl, rfl⟩ | ⟨rfl, rfl⟩ | ⟨rfl, rfl⟩ | ⟨rfl, rfl⟩
    · exact .byHash
    · exact .byNumber
    · exact .body
    · exact .receipts
  · intro h
    cases h <;> simp [FileBridge.contentsOf, Value.encode, hashOf, headerBytes, bodyBytes, receiptsBytes]

theorem checked_of_fit {n : Node Hd Tx Rc Wd} {env : E2hsBridge.Env Hd Tx Rc Wd} (hs : SameChain n env)
    {summaries : List Summary} {t : Tuple Hd Tx Rc Wd} (fit : Fit n summaries t) : FileBridge.Checked env t := by
  obtain ⟨h1, h2, h3, h4⟩ := hs
  constructor
  · intro hc hd cache source
    have := fit.proof
    rw [h1, h2, h3, h4]
    revert this hc hd
    generalize t.headerWithProof.2 = p
    intro hc hd this
    cases p with
    | hashes p => exact this
    | roots p => exact this
    | capella p => exact absurd rfl (hc p)
    | deneb p => exact absurd rfl (hd p)
  · rw [h1]; exact fit.transactions
  · rw [h1]; exact fit.ommers
  · rw [h1]; exact fit.withdrawals
  · rw [h1]; exact fit.receipts

theorem iterTuples_of_deserialize {T : Type} {f : Archive.TupleFormat T} {bs : Bytes} {e : Archive.E2hs T}
    (h : Archive.E2hs.deserialize f bs = .ok e) : Archive.E2hs.iterTuples f bs = .ok e.tuples := by
  unfold Archive.E2hs.deserialize at h
  unfold Archive.E2hs.iterTuples
  cases h1 : E2store.deserialize bs with
  | err => rw [h1] at h; cases h
  | panic => rw [h1] at h; cases h
  | ok entries =>
    rw [h1] at h
    simp only [E2store.Res.bind] at h ⊢
    split at h
    · cases h
    · cases entries with
      | nil => simp at h
      | cons first rest =>
        cases hl : (first :: rest).getLast? with
        | none => simp at hl
        | some last =>
          rw [hl] at h
          simp only [List.drop_succ_cons, List.drop_zero] at h ⊢
          cases h2 : Archive.readVersion first with
          | err => rw [h2] at h; cases h
          | panic => rw [h2] at h; cases h
          | ok v =>
            rw [h2] at h
            simp only at h
            cases h3 : Archive.readIndex [65552] last with
            | err => rw [h3] at h; cases h
            | panic => rw [h3] at h; cases h
            | ok index =>
              rw [h3] at h
              simp only at h ⊢
              cases h4 : Archive.readTuples f index.count.toNat rest with
              | err => rw [h4] at h; cases h
              | panic => rw [h4] at h; cases h
              | ok ts => rw [h4] at h; cases h; rfl

theorem validate_mono {H : Id → Id → Id} {net : HeaderValidator.Net} {t : HeaderValidator.Trusted} {small all : List Summary}
    (hp : small <+: all) (h : HeaderValidator.Header) (p : HeaderProof)
    (ha : (HeaderValidator.validate H net t [] (fun _ => some small) h p).1 = .accept) :
    (HeaderValidator.validate H net t [] (fun _ => some all) h p).1 = .accept := by
  have hg : ∀ slot x, (HeaderValidator.getSummary [] (fun _ => some small) slot).1 = some x →
      (HeaderValidator.getSummary [] (fun _ => some all) slot).1 = some x := by
    intro slot x
    unfold HeaderValidator.getSummary
    cases ChainHead.historicalSummaryIndex slot with
    | none => exact id
    | some i =>
      simp only [List.getElem?_nil]
      intro hx
      by_cases hi : i < small.length
      · rw [← prefix_getElem? hp hi]
        cases hs : small[i]? with
        | none => rw [hs] at hx; cases hx
        | some y => rw [hs] at hx; exact hx
      · rw [List.getElem?_eq_none (by omega)] at hx; cases hx
  cases p with
  | hashes p => exact ha
  | roots p => exact ha
  | capella p =>
    simp only [HeaderValidator.validate, HeaderValidator.verifyCapellaToDeneb] at ha ⊢
    split at ha
    · cases ha
    · next h1 =>
      rw [if_neg h1]
      split at ha
      · cases ha
      · next h2 =>
        rw [if_neg h2]
        split at ha
        · cases ha
        · next h3 =>
          rw [if_neg h3]
          simp only at ha ⊢
          cases hs : (HeaderValidator.getSummary [] (fun _ => some small) p.slot.toNat).1 with
          | none => rw [hs] at ha; simp [HeaderValidator.verifySummaries] at ha
          | some x => rw [hg _ x hs]; rwa [hs] at ha
  | deneb p =>
    simp only [HeaderValidator.validate, HeaderValidator.verifyPostDeneb] at ha ⊢
    split at ha
    · cases ha
    · next h1 =>
      rw [if_neg h1]
      split at ha
      · cases ha
      · next h2 =>
        rw [if_neg h2]
        simp only at ha ⊢
        cases hs : (HeaderValidator.getSummary [] (fun _ => some small) p.slot.toNat).1 with
        | none => rw [hs] at ha; simp [HeaderValidator.verifySummaries] at ha
        | some x => rw [hg _ x hs]; rwa [hs] at ha

theorem kind_of_accept {H : Id → Id → Id} {net : HeaderValidator.Net} {t : HeaderValidator.Trusted} {cache : List Summary}
    {source : Nat → Option (List Summary)} {h : HeaderValidator.Header} {p : HeaderProof}
    (ho : net.shanghaiTime ≤ net.cancunTime)
    (hb : h.number.toNat < net.parisBlock.toNat → h.timestamp < net.shanghaiTime)
    (ha : (HeaderValidator.validate H net t cache source h p).1 = .accept) : p.kind = decodedKind net h := by
  have ho' := UInt64.le_iff_toNat_le.mp ho
  cases p with
  | hashes p =>
    simp only [HeaderValidator.validate, HeaderValidator.verifyPreMerge] at ha
    split at ha
    · cases ha
    · next h1 =>
      simp only [HeaderValidator.Net.paris, decide_eq_true_eq, UInt64.le_iff_toNat_le] at h1
      have h2 := UInt64.lt_iff_toNat_lt.mp (hb (by omega))
      unfold decodedKind
      simp only [HeaderValidator.Net.paris, HeaderValidator.Net.shanghai, HeaderValidator.Net.cancun, decide_eq_true_eq,
        UInt64.le_iff_toNat_le]
      rw [if_neg (by omega), if_neg (by omega), if_neg (by omega)]
      rfl
  | roots p =>
    simp only [HeaderValidator.validate, HeaderValidator.verifyMergeToCapella] at ha
    split at ha
    · cases ha
    · next h1 =>
      split at ha
      · cases ha
      · next h2 =>
        simp only [HeaderValidator.Net.paris, HeaderValidator.Net.shanghai, Bool.not_eq_true', decide_eq_false_iff_not,
          Decidable.not_not, decide_eq_true_eq, UInt64.le_iff_toNat_le] at h1 h2
        unfold decodedKind
        simp only [HeaderValidator.Net.paris, HeaderValidator.Net.shanghai, HeaderValidator.Net.cancun, decide_eq_true_eq,
          UInt64.le_iff_toNat_le]
        rw [if_neg (by omega), if_neg (by omega), if_pos (by omega)]
        rfl
  | capella p =>
    simp only [HeaderValidator.validate, HeaderValidator.verifyCapellaToDeneb] at ha
    split at ha
    · cases ha
    · next h1 =>
      split at ha
      · cases ha
      · next h2 =>
        unfold decodedKind
        rw [if_neg h2, if_pos (by simpa using h1)]
        rfl
  | deneb p =>
    simp only [HeaderValidator.validate, HeaderValidator.verifyPostDeneb] at ha
    split at ha
    · cases ha
    · next h1 =>
      unfold decodedKind
      rw [if_pos (by simpa using h1)]
      rfl

end Verif.ArchiveFlow
