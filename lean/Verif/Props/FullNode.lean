import Verif.Lemmas.FullNode
import Verif.Props.ArchiveFlow
import Verif.Props.BuiltProofs

/-! # C99: from the root of trust to the answers

A node with the beacon, the history and the state network in one process, in any order of their events. -/

namespace Verif.Props
open Verif.FullNode Verif.Props.FullNodes Verif.Merkle Verif.HistoryValue
open Verif.ContentKey (Legacy)
open Verif.HeaderValidator (HeaderProof)
open Verif.HistoryValidator (HashCollision RootCollision CommitsBody)
open Verif.EthRpc (BlockId getBlock getBalance getStorageAt getCode NodeCollision)
open Verif.Trie (Commits)
open Verif.EvmState (AccountIs SlotIs)

variable {Hd Tx Rc Wd : Type} {n : Node Hd Tx Rc Wd} {given : Option Id} {tie : Nat} {es : List Ev} {s : FullNode.State}
  {L : Ledger Hd} {truth : List BeaconValue.Summary}

/-! ## What a node says is on the chain -/

/-- Whenever the history network asks the beacon network for historical summaries, it is told nothing or a beginning of the
true list. -/
theorem C99_summaries (ht : Trust n given tie es truth) (pre post : List Ev) (hes : es = pre ++ post) (hl : Lives n given tie pre s)
    (epoch : Nat) (l : List HeaderValidator.Summary) (h : BeaconNode.summariesFor n.light s.beacon epoch = some l) :
    l <+: truth.map historySummary := by
  have := C93_history ht.chain ht.late ht.assumed ht.unattended ht.early truth ht.states ht.sums ht.true ht.binding
    [.arrived (.headerByNumber 0) [] ⟨BeaconNode.summariesFor n.light s.beacon, fun _ => none⟩] (by
      intro f hf
      rw [List.mem_singleton.mp hf]
      exact ⟨beaconEvents pre, beaconEvents post, s.beacon, by rw [hes, beaconEvents_append], hl.parts.1, rfl⟩)
  exact this _ (List.mem_singleton.mpr rfl) epoch l h

/-- Every header that the node stores, answers or passes on, for a hash or for a number, is the header of that hash or number,
and is the one that the chain has at the place that its proof names. -/
theorem C99_header (hf : n.history.lib.Faithful) (hd : Describes L n.history truth) (ht : Trust n given tie es truth)
    (hc : Clean n es) (hl : Lives n given tie es s) (key : Legacy) (bs : Bytes) (hg : Given n es s key bs) (h : Hd)
    (p : HeaderProof) (hdec : Value.decode n.history.lib n.history.net key bs = some (.header h p)) :
    OnChain L n.history h p ∧ (∀ k, key = .headerByHash k → n.history.lib.keccak (n.history.lib.header.enc h) = k) ∧
      ∀ k, key = .headerByNumber k → (n.history.lib.view h).number = k :=
  header_on_chain hf hd ht hc hl hg hdec

/-- Two nodes, each with peers of its own, that give a header for the same number give the same one. -/
theorem C99_agree {n' : Node Hd Tx Rc Wd} {given' : Option Id} {tie' : Nat} {es' : List Ev} {s' : FullNode.State}
    {truth' : List BeaconValue.Summary} (hf : n.history.lib.Faithful) (hlib : n'.history.lib = n.history.lib)
    (hnet : n'.history.net = n.history.net) (hone : L.One n.history)
    (hd : Describes L n.history truth) (ht : Trust n given tie es truth) (hc : Clean n es) (hl : Lives n given tie es s)
    (hd' : Describes L n'.history truth') (ht' : Trust n' given' tie' es' truth') (hc' : Clean n' es')
    (hl' : Lives n' given' tie' es' s') (k : UInt64) (bs bs' : Bytes) (hg : Given n es s (.headerByNumber k) bs)
    (hg' : Given n' es' s' (.headerByNumber k) bs') (h h' : Hd) (p p' : HeaderProof)
    (hdec : Value.decode n.history.lib n.history.net (.headerByNumber k) bs = some (.header h p))
    (hdec' : Value.decode n.history.lib n.history.net (.headerByNumber k) bs' = some (.header h' p')) :
    h = h' ∨ Broken L n.history h p ∨ Broken L n'.history h' p' := by
  obtain ⟨h1, _, h2⟩ := header_on_chain hf hd ht hc hl hg hdec
  obtain ⟨h3, _, h4⟩ := header_on_chain (by rw [hlib]; exact hf) hd' ht' hc' hl' hg' (by rw [hlib, hnet]; exact hdec')
  have e1 := h2 k rfl
  have e2 := h4 k rfl
  rcases h1 with ⟨h5, h6⟩ | h1
  · rcases h3 with ⟨h7, h8⟩ | h3
    · left
      rw [e1] at h5 h6
      rw [e2] at h7 h8
      have h8 : L.Has n.history k p' := by cases p' <;> first | exact h8 | (simp only [Ledger.Has, hnet] at h8 ⊢; exact h8)
      rw [hlib] at e2
      rw [h5, h7]
      exact hone k p p' h6 h8 (by rw [← h5]; exact e1) (by rw [← h7]; exact e2)
    · exact .inr (.inr h3)
  · exact .inr (.inl h1)

/-! ## What the endpoints answer -/

section Endpoints
variable (api : EthRpc.Api Hd Tx Rc Wd)

/-- A block that `eth_getBlockByHash` or `eth_getBlockByNumber` returns is the block of that hash or number, on the chain: the
hashes are those of its transactions and of its uncles in order, and the withdrawals are its withdrawals, or are missing (C58). -/
theorem C99_block (hf : n.history.lib.Faithful) (hd : Describes L n.history truth) (ht : Trust n given tie es truth)
    (hc : Clean n es) (he : Endpoints n given tie es api) (block : BlockId) (r : EthRpc.RpcBlock Hd Wd)
    (hr : getBlock api block false = .ok r) :
    Asked L n.history api block r.header ∧
    ∀ true : Body Hd Tx Wd, CommitsBody n.history.lib r.header true →
      (r.transactions = true.transactions.map (fun t => n.history.lib.keccak (n.history.lib.tx.enc t)) ∧
        r.uncles = true.ommers.map (fun o => n.history.lib.keccak (n.history.lib.header.enc o)) ∧
        (r.withdrawals = true.withdrawals ∨ r.withdrawals = none)) ∨
      (∃ h, HistoryNodes.HeaderOf n.history (historyEvents es) (n.history.lib.keccak (n.history.lib.header.enc r.header)) h ∧
        HashCollision n.history.lib (n.history.lib.header.enc h) (n.history.lib.header.enc r.header)) ∨
      ∃ bs b, api.history (.blockBody (n.history.lib.keccak (n.history.lib.header.enc r.header))) = some bs ∧
        Value.decode n.history.lib n.history.net (.blockBody (n.history.lib.keccak (n.history.lib.header.enc r.header))) bs =
          some (.body b) ∧
        (HashCollision n.history.lib (n.history.lib.ommers.enc b.ommers) (n.history.lib.ommers.enc true.ommers) ∨
          RootCollision n.history.lib (b.transactions.map n.history.lib.tx.enc) (true.transactions.map n.history.lib.tx.enc) ∨
          ∃ ws ws', b.withdrawals = some ws ∧ true.withdrawals = some ws' ∧
            RootCollision n.history.lib (ws.map n.history.lib.withdrawal.enc) (ws'.map n.history.lib.withdrawal.enc)) := by
  unfold getBlock at hr
  split at hr
  · cases hr
  next h hh =>
  unfold EthRpc.fetchBlock at hr
  split at hr
  · cases hr
  split at hr
  · cases hr
  next b hb =>
  cases hr
  refine ⟨asked_of hf hd ht hc he hh, fun true hcom => ?_⟩
  obtain ⟨bs, h1, h2⟩ := EthRpc.fetchBody_ok hb
  rw [he.lib] at h1 h2
  rw [he.net] at h2
  obtain ⟨h3, h4, pre, post, s, rfl, hl, hg⟩ := he.history _ _ h1
  obtain ⟨h0, t0, hrun⟩ := hl.of_run
  obtain ⟨e1, e2, e3⟩ := lived_same pre hrun
  simp only at e1 e2 e3
  obtain ⟨b', h5, h6⟩ := C91_body_partial n.history hf hc.sql _ s.history hl.parts.2.1 (lived_operator pre hrun (operator_part hc.operator))
    _ bs (by
      rw [lived_keys pre hrun]
      exact h4.mono (keys_part pre post _)) hg (by
      rw [e2]
      exact fun h => h3 (by rw [historyEvents_append, HistoryNodes.operated_append]; exact List.mem_append_left _ h)) h true rfl hcom
  rw [h2] at h5
  cases h5
  rw [he.lib]
  rcases h6 with ⟨g1, g2, g3⟩ | ⟨h', ⟨g1, bs', p', g2, g3⟩, g4⟩ | h6 | h6 | h6
  · exact .inl ⟨by simp only [g1], by simp only [g2], g3⟩
  · refine .inr (.inl ⟨h', ⟨g1, bs', p', ?_, g3⟩, g4⟩)
    rw [e1, e2] at g2
    rw [historyEvents_append, HistoryNodes.received_append, HistoryNodes.operated_append]
    exact g2.imp (fun h => List.mem_append_left _ h) (fun h => List.mem_append_left _ h)
  · exact .inr (.inr ⟨bs, b, h1, h2, .inl h6⟩)
  · exact .inr (.inr ⟨bs, b, h1, h2, .inr (.inl h6)⟩)
  · exact .inr (.inr ⟨bs, b, h1, h2, .inr (.inr h6)⟩)

/-- The balance that `eth_getBalance` answers for a block is the one that the account has in the state of that block on the
chain, zero if there is no account. -/
theorem C99_balance (hf : n.history.lib.Faithful) (hq : Store.Sql n.state.db) (hd : Describes L n.history truth)
    (ht : Trust n given tie es truth) (hc : Clean n es) (he : Endpoints n given tie es api) (rounds : Nat) (address : Bytes)
    (block : BlockId) (x : BitVec 256) (hr : getBalance api rounds address block = .ok x) :
    ∃ h, Asked L n.history api block h ∧ ∀ db state, Commits api.evm.trie db (api.stateRoot h) state →
      (AccountIs api.evm state (api.evm.trie.K address) none ∧ x = 0) ∨
      (∃ a, AccountIs api.evm state (api.evm.trie.K address) (some a) ∧ x = a.balance) ∨ NodeCollision api db := by
  obtain ⟨h0, hh⟩ : ∃ h0, EthRpc.headerOf api block = .ok h0 := by
    unfold getBalance at hr
    split at hr
    · cases hr
    · next hb => exact ⟨_, (EthRpc.blockState_ok hb).2.choose_spec.1⟩
  refine ⟨h0, asked_of hf hd ht hc he hh, ?_⟩
  obtain ⟨_, _, h1⟩ := C60_balance (fixed api h0) n.history.H n.history.trusted [] (fixed_history hc he) (fixed_state hq he) rounds
    address block x (by
      rw [← hr]
      unfold getBalance
      rw [fixed_blockState hh]
      rfl)
  exact h1

/-- The same for `eth_getStorageAt`. -/
theorem C99_storage (hf : n.history.lib.Faithful) (hq : Store.Sql n.state.db) (hd : Describes L n.history truth)
    (ht : Trust n given tie es truth) (hc : Clean n es) (he : Endpoints n given tie es api) (rounds : Nat) (address : Bytes)
    (slot : BitVec 256) (block : BlockId) (x : BitVec 256) (hr : getStorageAt api rounds address slot block = .ok x) :
    ∃ h, Asked L n.history api block h ∧ ∀ db state, Commits api.evm.trie db (api.stateRoot h) state →
      (AccountIs api.evm state (api.evm.trie.K address) none ∧ x = 0) ∨
      (∃ a, AccountIs api.evm state (api.evm.trie.K address) (some a) ∧
        ∀ dbS tS, Commits api.evm.trie dbS a.storageRoot tS → SlotIs api.evm tS slot x ∨ NodeCollision api dbS) ∨
      NodeCollision api db := by
  obtain ⟨h0, hh⟩ : ∃ h0, EthRpc.headerOf api block = .ok h0 := by
    unfold getStorageAt at hr
    split at hr
    · cases hr
    · next hb => exact ⟨_, (EthRpc.blockState_ok hb).2.choose_spec.1⟩
  refine ⟨h0, asked_of hf hd ht hc he hh, ?_⟩
  obtain ⟨_, _, h1⟩ := C60_storage (fixed api h0) n.history.H n.history.trusted [] (fixed_history hc he) (fixed_state hq he) rounds
    address slot block x (by
      rw [← hr]
      unfold getStorageAt
      rw [fixed_blockState hh]
      rfl)
  exact h1

/-- The same for `eth_getCode`. -/
theorem C99_code (hf : n.history.lib.Faithful) (hq : Store.Sql n.state.db) (hd : Describes L n.history truth)
    (ht : Trust n given tie es truth) (hc : Clean n es) (he : Endpoints n given tie es api)
    (hempty : api.evm.trie.K [] = api.evm.keccakEmpty) (rounds : Nat) (address : Bytes) (block : BlockId) (c : Bytes)
    (hr : getCode api rounds address block = .ok c) :
    ∃ h, Asked L n.history api block h ∧ ∀ db state, Commits api.evm.trie db (api.stateRoot h) state →
      (AccountIs api.evm state (api.evm.trie.K address) none ∧ c = []) ∨
      (∃ a, AccountIs api.evm state (api.evm.trie.K address) (some a) ∧ api.evm.trie.K c = a.codeHash) ∨
      NodeCollision api db := by
  obtain ⟨h0, hh⟩ : ∃ h0, EthRpc.headerOf api block = .ok h0 := by
    unfold getCode at hr
    split at hr
    · cases hr
    · next hb => exact ⟨_, (EthRpc.blockState_ok hb).2.choose_spec.1⟩
  refine ⟨h0, asked_of hf hd ht hc he hh, ?_⟩
  obtain ⟨_, _, h1⟩ := C60_code (fixed api h0) n.history.H n.history.trusted [] (fixed_history hc he) (fixed_state hq he) hempty
    rounds address block c (by
      rw [← hr]
      unfold getCode
      rw [fixed_blockState hh]
      rfl)
  exact h1

end Endpoints

/-! ## What a node comes to say -/

open ArchiveFlow in
/-- A node to which a peer sends historical summaries that are acceptable to its light client, and then, as the bridge does,
contents of blocks whose proofs are right for these summaries, answers with these blocks: the summaries reach the validator of
the history network over the beacon network of the same process. -/
theorem C99_serves (hf : n.history.lib.Faithful) (hlate : BeaconNodes.Late (beaconEvents es)) (hl : Lives n given tie es s)
    (f : BeaconValue.Fork) (x : BeaconValue.Summaries) (now : Nat) (hnow : 864000 ≤ now)
    (hok : BeaconRules.Acceptable n.light BeaconNodes.mainnet now (BeaconNodes.view s.beacon.client) (.historicalSummaries x.epoch)
      (.summaries f x))
    (hnew : BeaconNodes.Lacks n.light s.beacon (.historicalSummaries x.epoch)) (hfit : x.epoch.toNat < 2 ^ 63)
    (hreach : (758 + x.summaries.1.length) * 256 ≤ x.epoch.toNat) (ps : List Parcel)
    (hd : Delivery n.history (x.summaries.1.map historySummary) s.history
      (ps.map fun p => { p with source := fun _ => some (x.summaries.1.map historySummary) })) :
    ∃ s', run n s (.beacon (.arrived (.historicalSummaries x.epoch) (BeaconFormat.value (.summaries f x)) now) ::
        .beacon (.keep s.beacon.held.length fun _ => true) :: (feed s.history.held.length ps).map .history) = some s' ∧
      ∀ api, On n.history s'.history api → ∀ t, Fit n.history (x.summaries.1.map historySummary) t →
        (∃ p ∈ ps, p.key = .blockBody (hashOf n.history.lib t) ∧ p.content = bodyBytes n.history.lib t) →
        ((∃ p ∈ ps, p.key = .headerByHash (hashOf n.history.lib t) ∧ p.content = headerBytes n.history.lib t) →
          getBlock api (.hash (hashOf n.history.lib t)) false =
            .ok (rpcBlock n.history.lib t.headerWithProof.1 t.body)) ∧
        ((∃ p ∈ ps, p.key = .headerByNumber (n.history.lib.view t.headerWithProof.1).number ∧
            p.content = headerBytes n.history.lib t) →
          getBlock api (.number (n.history.lib.view t.headerWithProof.1).number) false =
            .ok (rpcBlock n.history.lib t.headerWithProof.1 t.body)) := by
  obtain ⟨b', h1, h2⟩ := C93_keeps hlate hl.parts.1 (.historicalSummaries x.epoch) (.summaries f x) now hnow trivial hok hnew hfit
  have htells := tells_of h2 hreach
  have hd' := told hd htells
  obtain ⟨h', h3, h4, h5⟩ := C96_taken n.history hf _ _ _ hd'
  refine ⟨⟨b', h', s.state⟩, ?_, ?_⟩
  · have e1 := run_beacon (n := n) (s := s) [.arrived (.historicalSummaries x.epoch) (BeaconFormat.value (.summaries f x)) now,
      .keep s.beacon.held.length fun _ => true] h1
    have e2 := run_history (n := n) (s := { s with beacon := b' }) (feed s.history.held.length ps) (h' := h') (by
      rw [feed_atMoment]; exact h3)
    have e3 := run_append (n := n) (List.map Ev.beacon [.arrived (.historicalSummaries x.epoch) (BeaconFormat.value (.summaries f x)) now,
      .keep s.beacon.held.length fun _ => true]) ((feed s.history.held.length ps).map .history) s
    rw [e1, Option.bind_some, e2] at e3
    exact e3
  · intro api hon t hfit ⟨p, hp, hk, hv⟩
    have hget : ∀ p ∈ ps, HistoryNode.get n.history h'.store p.key = some p.content := fun p hp =>
      h4 { p with source := BeaconNode.summariesFor n.light b' } (List.mem_map_of_mem hp)
    obtain ⟨g1, g2⟩ := C96_answered n.history hf _ t hfit h' api hon (by rw [← hk, ← hv]; exact hget p hp)
    refine ⟨?_, ?_⟩
    · rintro ⟨q, hq, hk', hv'⟩
      exact g1 (by rw [← hk', ← hv']; exact hget q hq)
    · rintro ⟨q, hq, hk', hv'⟩
      exact g2 (by rw [← hk', ← hv']; exact hget q hq)

/-! ## Before the light client runs -/

/-- That no summaries are taken before the light client runs is needed, and the program does not see to it: until then a peer
can make a node take any header of the present time, and give it for its number. There are no other events: a peer sends
summaries that it made up, which are stored, and then the header. -/
theorem C99_forged_violated (n : Node Hd Tx Rc Wd) (given : Option Id) (tie : Nat) (hf : n.history.lib.Faithful)
    (cfg cfg' : Store.Config) (sps sps' : List Store.Speed) (store store' : Store.Store)
    (hcreate : Store.create n.history.db cfg sps [] = .ok store) (hcreate' : Store.create n.state.db cfg' sps' [] = .ok store')
    (h : Hd) (htime : n.history.net.cancunTime ≤ (n.history.lib.hdr h).timestamp)
    (hsize : (n.history.lib.header.enc h).length ≤ 2048) :
    ∃ (es : List Ev) (s : FullNode.State) (bs : Bytes) (p : HeaderProof), Lives n given tie es s ∧
      BeaconNodes.Late (beaconEvents es) ∧ (∀ k v, ¬ BeaconNodes.Operated (beaconEvents es) k v) ∧
      HistoryNodes.operated (historyEvents es) = [] ∧ stateEvents es = [] ∧
      Given n es s (.headerByNumber (n.history.lib.view h).number) bs ∧
      Value.decode n.history.lib n.history.net (.headerByNumber (n.history.lib.view h).number) bs = some (.header h p) := by
  have hb : ∃ b : HeaderValidator.Block .deneb, b.blockHash = (n.history.lib.hdr h).hash := ⟨⟨Vector.replicate 4 1, Vector.replicate 9 2,
    Vector.replicate 2 3, Vector.replicate 12 4, (n.history.lib.hdr h).hash, Vector.replicate 4 5⟩, rfl⟩
  obtain ⟨b, hb⟩ := hb
  obtain ⟨roots, hr⟩ := exists_replicate 8192 (b.root n.history.H)
  have hx : ∃ x : BeaconValue.Summaries, x.epoch = 194304 ∧
      x.summaries.1 = [⟨HeaderValidator.containerRoot n.history.H roots.toList, 0⟩] :=
    ⟨⟨194304, ⟨[⟨HeaderValidator.containerRoot n.history.H roots.toList, 0⟩], by simp⟩, ⟨List.replicate 6 0, by simp⟩⟩, rfl, rfl⟩
  obtain ⟨x, hx1, hx2⟩ := hx
  obtain ⟨b', h1, h2⟩ := C93_keeps (es := []) (env := n.light) (given := given) (tie := tie)
    (s := BeaconNode.fresh given tie BeaconStore.init) (by intro k b n h; cases h) rfl
    (.historicalSummaries x.epoch) (.summaries .electra x) 864000 (Nat.le_refl _) trivial ⟨rfl, nofun⟩ (by rw [hx1]; rfl)
    (by rw [hx1]; simp [BeaconNodes.Fits])
  have htells := tells_of h2 (by rw [hx1, hx2]; show (758 + 1) * 256 ≤ 194304; decide)
  rw [hx2] at htells
  obtain ⟨l, hl1, hl2⟩ := htells.reaches 6209536 0 (by decide) (by simp)
  have hl3 : l = [⟨HeaderValidator.containerRoot n.history.H roots.toList, 0⟩] := by
    have := htells.part _ _ hl1
    exact List.IsPrefix.eq_of_length this (by have := this.length_le; simp at this ⊢; omega)
  have hn : (6209536 : UInt64).toNat = 6209536 := by decide
  have hcap : Verif.Props.firstCapellaSlot = 6209536 := rfl
  obtain ⟨p, _, hp⟩ := C50_deneb n.history.H n.history.net n.history.trusted [] (BeaconNode.summariesFor n.light b')
    (n.history.lib.hdr h) 6209536 roots .deneb (.inl rfl) b ⟨HeaderValidator.containerRoot n.history.H roots.toList, 0⟩ htime hb
    (by rw [hr, List.getElem?_replicate, hn, if_pos (by omega)])
    (by
      rw [hn, C35_cache_miss _ _ _ (by rw [hcap]; omega) (by simp), hl1, hl3]
      simp [hcap]) rfl
  have hkind : (HeaderProof.deneb p).kind = HeaderValidator.decodedKind n.history.net (n.history.lib.hdr h) := by
    have : n.history.net.cancun (n.history.lib.hdr h).timestamp = true := by simpa [HeaderValidator.Net.cancun] using htime
    simp [HeaderProof.kind, HeaderValidator.decodedKind, this]
  have hdec : Value.decode n.history.lib n.history.net (.headerByNumber (n.history.lib.view h).number)
      (encodeHeaderWithProof n.history.lib h (.deneb p)) = some (.header h (.deneb p) : Value Hd Tx Rc Wd) := by
    simp [Value.decode, hwp_encode hf hsize hkind]
  generalize hbs : encodeHeaderWithProof n.history.lib h (.deneb p) = bs at hdec
  generalize hkey : (n.history.lib.view h).number = k at hdec
  have hacc : HistoryValidator.Accepts (HistoryNode.env n.history (HistoryNode.fresh (cfg, store))
      ⟨BeaconNode.summariesFor n.light b', fun _ => none⟩) [] (.headerByNumber k) bs :=
    (C58_by_number ..).mpr ⟨h, .deneb p, hdec, hkey, hp⟩
  have hstep : ∃ h', HistoryNode.run n.history (HistoryNode.fresh (cfg, store))
      [.arrived (.headerByNumber k) bs ⟨BeaconNode.summariesFor n.light b', fun _ => none⟩] = .ok h' ∧
      (.headerByNumber k, bs) ∈ h'.held := by
    refine ⟨_, rfl, ?_⟩
    have hacc : (HistoryValidator.validateContent (HistoryNode.env n.history (HistoryNode.fresh (cfg, store))
      ⟨BeaconNode.summariesFor n.light b', fun _ => none⟩) (HistoryNode.fresh (cfg, store)).cache (.headerByNumber k) bs).1 = .accept := hacc
    show (Legacy.headerByNumber k, bs) ∈ (if _ then _ else _)
    rw [if_pos hacc]
    simp
  obtain ⟨h', hrun, hheld⟩ := hstep
  refine ⟨[.beacon (.arrived (.historicalSummaries x.epoch) (BeaconFormat.value (.summaries .electra x)) 864000),
    .beacon (.keep 0 fun _ => true), .history (.arrived (.headerByNumber k) bs ⟨fun _ => none, fun _ => none⟩)],
    ⟨b', h', StateNode.fresh (cfg', store')⟩, bs, .deneb p, ⟨cfg, sps, store, cfg', sps', store', hcreate, hcreate', ?_⟩, ?_, ?_, rfl, rfl,
    ⟨.inr hheld, by simp [historyEvents, HistoryNodes.operated], ?_⟩, hdec⟩
  · have e1 := run_beacon (n := n) (s := ⟨BeaconNode.fresh given tie BeaconStore.init, HistoryNode.fresh (cfg, store),
      StateNode.fresh (cfg', store')⟩) _ h1
    have e2 := run_history (n := n) (s := ⟨b', HistoryNode.fresh (cfg, store), StateNode.fresh (cfg', store')⟩)
      [.arrived (.headerByNumber k) bs ⟨fun _ => none, fun _ => none⟩] (h' := h') hrun
    have e3 := run_append (n := n) (List.map Ev.beacon [.arrived (.historicalSummaries x.epoch) (BeaconFormat.value (.summaries .electra x))
      864000, .keep 0 fun _ => true]) ([.arrived (.headerByNumber k) bs ⟨fun _ => none, fun _ => none⟩].map Ev.history)
      ⟨BeaconNode.fresh given tie BeaconStore.init, HistoryNode.fresh (cfg, store), StateNode.fresh (cfg', store')⟩
    rw [show List.map Ev.beacon [.arrived (.historicalSummaries x.epoch) (BeaconFormat.value (.summaries .electra x))
      864000, .keep 0 fun _ => true] = List.map Ev.beacon [.arrived (.historicalSummaries x.epoch) (BeaconFormat.value
      (.summaries .electra x)) 864000, .keep (BeaconNode.fresh given tie BeaconStore.init).held.length fun _ => true] from rfl, e1,
      Option.bind_some, e2] at e3
    exact e3
  · intro key bs' now hm
    simp only [beaconEvents, List.filterMap_cons, List.filterMap_nil, List.mem_cons, List.not_mem_nil, or_false] at hm
    rcases hm with hm | hm
    · cases hm; exact Nat.le_refl _
    · cases hm
  · rintro key v ⟨_, ask, w, hm⟩
    simp [beaconEvents] at hm
  · intro a ha c hc _
    have hall : ∀ a ∈ Legacy.headerByNumber k :: HistoryNodes.keys (historyEvents
        [.beacon (.arrived (.historicalSummaries x.epoch) (BeaconFormat.value (.summaries .electra x)) 864000),
        .beacon (.keep 0 fun _ => true), .history (.arrived (.headerByNumber k) bs ⟨fun _ => none, fun _ => none⟩)]),
        a = .headerByNumber k := by
      intro a ha
      simpa [historyEvents, HistoryNodes.keys, HistoryNodes.received, HistoryNodes.operated, HistoryNodes.asked] using ha
    rw [hall a ha, hall c hc]

end Verif.Props

namespace Verif.FullNodeExample
open Verif Verif.FullNode Verif.Props Verif.Props.FullNodes Verif.Merkle Verif.HistoryValue
open Verif.ContentKey (Legacy)
open Verif.HeaderValidator (HeaderProof)
open Verif.HistoryExample (lib net lib_faithful)

/-- A hash function for which a tree with equal leaves has that value as its root. -/
def H (a b : Id) : Id := if a = b then a else 3 * a + 5 * b + 7

theorem root_same (a : Id) : ∀ d, treeRoot H d (fun _ => a) = a
  | 0 => rfl
  | d + 1 => by rw [treeRoot, root_same a d]; exact if_pos rfl

/-- One epoch of records. -/
def epoch : Id := H 1 (HeaderValidator.leNode 8192)
def record : HeaderValidator.Record := ⟨1, BitVec.ofNat 256 (2 ^ 248)⟩
def records : List HeaderValidator.Record := List.replicate 8192 record

theorem epoch_root : epochRoot H records = epoch := by
  have h2 : H record.blockHash (HeaderValidator.leNode record.totalDifficulty.toNat) = 1 := by decide +kernel
  have h3 : listRoot H 13 (List.replicate 8192 1) = 1 := by
    refine Eq.trans (treeRoot_congr H 13 _ (fun _ => 1) fun i hi => ?_) (root_same 1 13)
    rw [List.getD_eq_getElem?_getD, List.getElem?_replicate, if_pos (by simpa using hi)]
    rfl
  unfold epochRoot records
  rw [List.map_replicate, h2, h3, List.length_replicate]
  rfl

/-- The light client of `BeaconNodeExample`, the state network of `StateNodeExample`, and a history network. -/
def node : Node UInt8 UInt8 UInt8 UInt8 where
  light := BeaconNodeExample.toy
  history := ⟨lib, H, net, ⟨[epoch], []⟩, HistoryNodeExample.node.db⟩
  state := StateNodeExample.node'

/-- The chain: before the merge the number of a header is the header; after it, the one block that there is has no header. -/
def ledger : Ledger UInt8 where
  old k := UInt8.ofNat k
  records _ := records
  blockRoots _ _ := 1001
  stateRoots _ := 0
  form _ := .phase0
  contents _ := ⟨fun _ => 1001, fun _ => 1001, fun _ => 1001⟩
  header _ := 0

theorem describes : Describes ledger node.history [BeaconNodeExample.one] where
  epochs i root h := by
    have h1 : root = epoch := by
      have := List.mem_of_getElem? h
      simpa [node] using this
    rw [h1]
    exact epoch_root.symm
  records k _ := by
    refine ⟨record, ?_, rfl⟩
    show records[k.toNat % 8192]? = _
    unfold records
    rw [List.getElem?_replicate, if_pos (by omega)]
  roots i root h := by cases h
  summaries i s h := by
    have h1 : s = BeaconNodeExample.one := by
      have := List.mem_of_getElem? h
      simpa using this
    rw [h1]
    exact (root_same 1001 13).symm
  blocks slot := ⟨(root_same 1001 3).symm, (root_same 1001 3).symm, (root_same 1001 1).symm⟩

theorem one_chain : ledger.One node.history := by
  intro number p p' h1 h2 _ _
  cases p with
  | hashes _ =>
    cases p' with
    | hashes _ => rfl
    | roots _ => cases h2
    | capella _ => cases h2
    | deneb _ => cases h2
  | roots _ => cases h1
  | capella _ => cases h1
  | deneb _ => cases h1

def proof : Vector Id 15 := ⟨#[1, 1, 1, 1, 1, 1, 1, 1, 1, 1, 1, 1, 1, 1, HeaderValidator.leNode 8192], rfl⟩
def header : Bytes := encodeHeaderWithProof lib 5 (.hashes proof)
def m : HistoryNode.Moment := ⟨fun _ => none, fun _ => some header⟩

/-- A peer sends the header 5 under its number and its hash, and the body. -/
def day : List HistoryNode.Ev :=
  [.arrived (.headerByNumber 5) header m, .keep 0 [], .arrived (.headerByHash 1) header m, .keep 1 [], .headerStored 1,
    .arrived (.blockBody 1) HistoryNodeExample.body m, .keep 2 []]

def events : List Ev := day.map .history ++ (StateNodeExample.day.map .state ++ BeaconNodeExample.events.map .beacon)

def beforehand : BeaconNode.State := BeaconNode.fresh (some BeaconNodeExample.root) 0 BeaconStore.init

theorem day_ends : (HistoryNode.run node.history (HistoryNode.fresh (HistoryNodeExample.cfg, HistoryNodeExample.store))
      (day.map (atMoment node beforehand))).map
    (fun s => decide (HistoryNode.get node.history s.store (.headerByNumber 5) = some header ∧
      HistoryNode.get node.history s.store (.headerByHash 1) = some header ∧
      HistoryNode.get node.history s.store (.blockBody 1) = some HistoryNodeExample.body)) = .ok true := by decide +kernel

theorem lives : ∃ s, Lives node (some BeaconNodeExample.root) 0 events s ∧
    HistoryNode.get node.history s.history.store (.headerByNumber 5) = some header ∧
    HistoryNode.get node.history s.history.store (.headerByHash 1) = some header ∧
    HistoryNode.get node.history s.history.store (.blockBody 1) = some HistoryNodeExample.body ∧
    s.state.found = [(StateNodeExample.leafKey, (StateContent.Value.trieNode [2]).encode),
      (StateNodeExample.rootKey, (StateContent.Value.trieNode [1]).encode)] := by
  have h := day_ends
  cases hr : HistoryNode.run node.history (HistoryNode.fresh (HistoryNodeExample.cfg, HistoryNodeExample.store))
      (day.map (atMoment node beforehand)) with
  | error e => rw [hr] at h; cases h
  | ok h1 =>
    rw [hr] at h
    injection h with h
    obtain ⟨g1, g2, g3⟩ := of_decide_eq_true h
    have h := StateNodeExample.day_ends
    cases hr' : StateNode.run StateNodeExample.node' (StateNode.fresh (StateNodeExample.cfg, StoreExample.start)) StateNodeExample.day with
    | error e => rw [hr'] at h; cases h
    | ok t1 =>
      rw [hr'] at h
      injection h with h
      obtain ⟨g4, _⟩ := of_decide_eq_true h
      obtain ⟨b1, hb, _⟩ := BeaconNodeExample.stored
      refine ⟨⟨b1, h1, t1⟩, ⟨HistoryNodeExample.cfg, [], HistoryNodeExample.store, StateNodeExample.cfg, [], StoreExample.start,
        HistoryNodeExample.created, StateNodeExample.created, ?_⟩, g1, g2, g3, g4⟩
      have e1 := run_history (n := node) (s := ⟨beforehand, HistoryNode.fresh (HistoryNodeExample.cfg, HistoryNodeExample.store),
        StateNode.fresh (StateNodeExample.cfg, StoreExample.start)⟩) day hr
      have e2 := run_state (n := node) (s := ⟨beforehand, h1, StateNode.fresh (StateNodeExample.cfg, StoreExample.start)⟩)
        StateNodeExample.day hr'
      have e3 := run_beacon (n := node) (s := ⟨beforehand, h1, t1⟩) BeaconNodeExample.events hb
      unfold events
      simp only [beforehand] at e1 e2 e3
      rw [run_append, e1, Option.bind_some, run_append, e2, Option.bind_some, e3]

theorem beacon_events : beaconEvents events = BeaconNodeExample.events := rfl
theorem history_events : historyEvents events = day := rfl
theorem state_events : stateEvents events = StateNodeExample.day := rfl

theorem clean : Clean node events where
  sql := HistoryNodeExample.sql
  operator := by
    intro k bs h
    rw [history_events, show HistoryNodes.operated day = [] from rfl] at h
    cases h

noncomputable def trust : Trust node (some BeaconNodeExample.root) 0 events [BeaconNodeExample.one] where
  late := BeaconNodeExample.late
  chain := BeaconNodeExample.chain
  assumed := BeaconNodeExample.assumed
  unattended k v := BeaconNodeExample.not_operated _ _
  early s k v h := by rw [(BeaconNodeExample.came s _ _ h).1]; simp [BeaconNodeExample.first]
  states _ := BeaconNodeExample.leaves
  sums _ := BeaconNodeExample.sums
  true h hc := by
    cases hc
    exact ⟨rfl, by rw [show node.light.H = BeaconNodeExample.H from rfl, BeaconNodeExample.sumsRoot_eq]; rfl, List.prefix_refl _⟩
  binding s k f y h hacc _ := by
    cases (BeaconNodeExample.came s _ _ hacc).2.2
    exact ⟨BeaconNodeExample.no_collisions, BeaconNodeExample.no_collisions_state⟩

theorem decodes : Value.decode node.history.lib node.history.net (.headerByNumber 5) header = some (.header 5 (.hashes proof) : Value UInt8 UInt8 UInt8 UInt8) := by
  have := hwp_encode (net := net) (p := .hashes proof) lib_faithful (h := (5 : UInt8)) (by decide) rfl
  simp only [Value.decode]
  show Option.map _ (decodeHeaderWithProof lib net (encodeHeaderWithProof lib 5 (.hashes proof))) = _
  rw [this]
  rfl

theorem no_id_collision (key : Legacy) (h : key = .headerByNumber 5 ∨ key = .headerByHash 1 ∨ key = .blockBody 1) :
    HistoryNodes.NoIdCollision node.history (key :: HistoryNodes.keys day) := by
  rcases h with rfl | rfl | rfl <;> (unfold HistoryNodes.NoIdCollision; decide +kernel)

/-- Everything that C99_header asks for holds of the header 5. -/
example : ∃ s, Lives node (some BeaconNodeExample.root) 0 events s ∧ OnChain ledger node.history 5 (.hashes proof) := by
  obtain ⟨s, h1, h2, _⟩ := lives
  exact ⟨s, h1, (C99_header lib_faithful describes trust clean h1 (.headerByNumber 5) header ⟨.inl h2, by simp [history_events, show
    HistoryNodes.operated day = [] from rfl], no_id_collision _ (.inl rfl)⟩ 5 (.hashes proof) decodes).1⟩

/-- Two such nodes agree. -/
example (s s' : FullNode.State) (h : Lives node (some BeaconNodeExample.root) 0 events s)
    (h' : Lives node (some BeaconNodeExample.root) 0 events s') :=
  C99_agree lib_faithful rfl rfl one_chain describes trust clean h describes trust clean h' 5

/-- The endpoints of the process. -/
def api : EthRpc.Api UInt8 UInt8 UInt8 UInt8 where
  lib := lib
  net := net
  evm := EvmStateExample.env (EvmStateExample.K [3])
  stateRoot _ := EvmStateExample.K [1]
  history key := if key = .headerByNumber 5 then some header else if key = .headerByHash 1 then some header
    else if key = .blockBody 1 then some HistoryNodeExample.body else none
  state := some fun key => if key = StateNodeExample.rootKey then some (StateContent.Value.trieNode [1]).encode
    else if key = StateNodeExample.leafKey then some (StateContent.Value.trieNode [2]).encode else none

theorem endpoints : Endpoints node (some BeaconNodeExample.root) 0 events api where
  lib := rfl
  net := rfl
  trie := rfl
  history key bs h := by
    obtain ⟨s, h1, h2, h3, h4, _⟩ := lives
    have hop : ∀ x : Legacy × Bytes, x ∉ HistoryNodes.operated (historyEvents events) := by
      intro x hx
      rw [history_events, show HistoryNodes.operated day = [] from rfl] at hx
      cases hx
    simp only [api] at h
    split at h
    · next hk => subst hk; cases h; exact ⟨hop _, no_id_collision _ (.inl rfl), events, [], s, by simp, h1, .inl h2⟩
    · split at h
      · next hk => subst hk; cases h; exact ⟨hop _, no_id_collision _ (.inr (.inl rfl)), events, [], s, by simp, h1, .inl h3⟩
      · split at h
        · next hk => subst hk; cases h; exact ⟨hop _, no_id_collision _ (.inr (.inr rfl)), events, [], s, by simp, h1, .inl h4⟩
        · cases h
  state net' hn key bs h := by
    cases hn
    obtain ⟨s, h1, _, _, _, h2⟩ := lives
    simp only at h
    split at h
    · next hk =>
      subst hk; cases h
      exact ⟨StateNodeExample.fine.mono (by rw [state_events]; simp +contextual), events, [], s, by simp, h1, by rw [h2]; simp⟩
    · split at h
      · next hk =>
        subst hk; cases h
        exact ⟨StateNodeExample.fine.mono (by rw [state_events]; simp +contextual), events, [], s, by simp, h1, by rw [h2]; simp⟩
      · cases h

deriving instance DecidableEq for EthRpc.RpcBlock

theorem answers : EthRpc.getBalance api 65 EvmStateExample.address (.number 5) = .ok 2 ∧
    EthRpc.getBlock api (.hash 1) false = .ok ⟨5, [1, 1], [], none⟩ := by decide +kernel

example := C99_balance api lib_faithful StoreExample.sql describes trust clean endpoints 65 EvmStateExample.address (.number 5) 2 answers.1
example := C99_block api lib_faithful describes trust clean endpoints (.hash 1) ⟨5, [1, 1], [], none⟩ answers.2
example := C99_storage api lib_faithful StoreExample.sql describes trust clean endpoints
example := C99_code api lib_faithful StoreExample.sql describes trust clean endpoints (by decide +kernel)

/-- Any header of the present time, here the header 200, can be forged. -/
example := C99_forged_violated node none 0 lib_faithful HistoryNodeExample.cfg StateNodeExample.cfg [] [] HistoryNodeExample.store
  StoreExample.start HistoryNodeExample.created StateNodeExample.created 200 (by decide) (by decide)

/-! The block of C96, after its summaries were sent to the same process. -/

namespace Second
open Verif.Props.E2hsGenExample hiding header
open Verif.Props.ArchiveFlow
open Verif.ArchiveFlowExample (all parcels generated same sizes delivery faithful)

noncomputable def node : Node ExecBuilder.Header Bytes Bytes Bytes :=
  ⟨BeaconNodeExample.toy, ArchiveFlowExample.node, StateNodeExample.node⟩

noncomputable def sent : BeaconValue.Summaries :=
  ⟨204800, ⟨all.map fun s => ⟨s.blockSummaryRoot, s.stateSummaryRoot⟩, by simp [all, summaries]⟩, ⟨List.replicate 6 0, rfl⟩⟩

theorem sent_all : sent.summaries.1.map historySummary = all := by
  simp only [sent, List.map_map, Function.comp_def, historySummary, List.map_id']

theorem created (ps : List Parcel) (hp : ps ≠ []) :
    Store.create ArchiveFlowExample.node.db (ArchiveFlowExample.cfg ps) [] [] = .ok ArchiveFlowExample.empty := by
  have hc : (ArchiveFlowExample.cfg ps).capacity ≠ 0 := by
    cases ps with
    | nil => exact absurd rfl hp
    | cons p ps => simp [ArchiveFlowExample.cfg, weight]
  simp only [Store.create, Store.openRows, Store.Store.initUsage, Store.Store.shouldPrune, Store.Store.aboveTarget,
    Store.Store.usage, List.length_nil, Store.sizes, List.map_nil, List.sum_nil, Nat.zero_mul, Nat.add_zero, gt_iff_lt, Nat.not_lt_zero,
    decide_false, Bool.false_eq_true, if_false, hc]
  rfl

/-- Block 17203205 is given for its number by a node that had nothing and was sent the summaries, then the block. -/
example : ∃ p ps, ps = parcels node.history.lib all ⟨(E2hsGenExample.header 17203205, p), body 17203205, [[7]]⟩ true ∧
    ∃ s s', Lives node none 0 [] s ∧
    run node s (.beacon (.arrived (.historicalSummaries 204800) (BeaconFormat.value (.summaries .electra sent)) 900000) ::
      .beacon (.keep 0 fun _ => true) :: (feed 0 ps).map .history) = some s' ∧ ∀ api, On node.history s'.history api →
      EthRpc.getBlock api (.number 17203205) false = .ok (rpcBlock node.history.lib (E2hsGenExample.header 17203205) (body 17203205)) := by
  obtain ⟨bytes, hg⟩ := generated
  obtain ⟨ts, h1, h2, h3, h4⟩ := ArchiveFlow.generated_file (same bytes) hg sizes (codec_lossless _) (codec_lossless _)
    (codec_lossless _)
  obtain ⟨p, g1, g2, g3⟩ := h4 5 (by decide)
  have hd := delivery ArchiveFlowExample.node rfl all _ g3 true
  refine ⟨p, _, rfl, ?_⟩
  have hl : Lives node none 0 [] ⟨BeaconNode.fresh none 0 BeaconStore.init, HistoryNode.fresh (ArchiveFlowExample.cfg (parcels node.history.lib
      all ⟨(E2hsGenExample.header 17203205, p), body 17203205, [[7]]⟩ true), ArchiveFlowExample.empty),
      StateNode.fresh (StateNodeExample.cfg, StoreExample.start)⟩ :=
    ⟨_, [], _, _, [], _, created _ (by simp [parcels]), StateNodeExample.created, rfl⟩
  have := C99_serves (n := node) faithful (by intro k b n h; cases h) hl .electra sent 900000 (by decide) ⟨rfl, nofun⟩ rfl (by decide)
    (by
      have : sent.summaries.1.length = 42 := by simp [sent, all, summaries]
      rw [this]; decide) (parcels ArchiveFlowExample.node.lib all _ true) (by rw [sent_all]; exact hd)
  obtain ⟨s', h5, h6⟩ := this
  refine ⟨_, s', hl, h5, fun api ho => ?_⟩
  exact (h6 api ho ⟨(E2hsGenExample.header 17203205, p), body 17203205, [[7]]⟩ (by rw [sent_all]; exact g3)
    ⟨_, .tail _ (.tail _ (.head _)), rfl, rfl⟩).2 ⟨_, .tail _ (.head _), rfl, rfl⟩

end Second

end Verif.FullNodeExample
