import Verif.Lemmas.StateNodeFeed
import Verif.Props.OfferTask
import Verif.Props.Lookup
import Verif.Props.TrieWalker
import Verif.Props.EthRpc
import Verif.Props.HistoryNode
import Verif.Lemmas.ExceptEq

/-! # C94: a state node, from what peers send to what `eth_getBalance` answers -/

namespace Verif.Props
open Verif Verif.StateContent Verif.StateNode Verif.Props.StateNodes

variable (n : Node)

theorem fits_of_valid {n : Node} {key : ContentKey.State} {bs : Bytes} {r : Result}
    (h : validateContent n.trie key bs = some r) (hr : r ≠ .invalid) :
    ∃ m, Fits n key bs (decide (r = .canonicallyValid)) m := by
  obtain ⟨v, h1, h2, h3, h4⟩ := C37_hash n.trie key bs r h hr
  obtain ⟨m, h5, h6⟩ := Option.map_eq_some_iff.mp h3
  refine ⟨m, v, h2, (C51_state_canonical key bs v h1).1, ?_, h5, h6⟩
  cases hp : hasProof v with
  | true => simp [h4.mpr hp]
  | false =>
    have : r ≠ .canonicallyValid := fun e => by rw [h4.mp e] at hp; cases hp
    simp [this]

/-! ## What the node stores, passes on and answers -/

/-- What the node has stored under a key is a node or a code with the hash in the key, without a proof; and it was in content
with a proof, which a peer sent and the validator accepted, or which the operator put in.
Missing: that the state is that of a block, see `C94_any_root_violated`. -/
theorem C94_stored_partial (hq : Store.Sql n.db) (es : List Ev) (s : StateNode.State) (hl : Lives n es s) (key : ContentKey.State)
    (v : Bytes) (hk : KeysFine n (key :: keys es)) (hg : get n s key = some v) :
    ∃ m, Fits n key v false m ∧ validateContent n.trie key v = some .valid ∧
      ∃ bs, Fits n key bs true m ∧
        (((key, bs) ∈ received es ∧ validateContent n.trie key bs = some .canonicallyValid) ∨ (key, bs) ∈ operated es) := by
  obtain ⟨cfg, sps, store, hc, hr⟩ := hl
  obtain ⟨ops, h1, h2⟩ := (run_inv n _ es s hr).store
  have hin : ∀ k b, From n es k b → k ∈ key :: keys es := by
    intro k b h
    refine List.mem_cons_of_mem _ ?_
    simp only [keys, List.mem_append]
    rcases h with ⟨h, _⟩ | h
    · exact .inl (.inl (List.mem_map_of_mem (f := Prod.fst) h))
    · exact .inl (.inr (List.mem_map_of_mem (f := Prod.fst) h))
  rcases C56_served n.trie n.db hq cfg sps store ops s.store hc h1 key v (hk.valid _ (List.mem_cons_self ..))
      (fun op ho k b hp => hk.valid _ (hin k b (h2 op ho k b hp))) hg with
    ⟨hv, op, ho, bs, m, hp, hm, rfl⟩ | ⟨op, ho, k, bs, hp, hne, hid⟩
  · obtain ⟨m', hm'⟩ := fits_of_valid hv (by decide)
    have hmm : m' = m := by
      obtain ⟨w, hb, he, _, hs, _⟩ := hm'
      obtain ⟨u, hu, _, _, hsu, _⟩ := hm
      have h3 := C51_state_roundtrip key w hb
      rw [he] at h3
      have fits : ∀ p : List Bytes, ProofFits p → p.getLast? = some m → m.length ≤ 1024 :=
        fun p hf hl => hf.2 _ (List.mem_of_getLast? hl)
      have h4 : ∃ w', Belongs key w' ∧ w'.encode = retrieved key m ∧ subject w' = some m := by
        cases hu with
        | accountNode path h x hx => cases hsu; exact ⟨_, .accountNode path h _ hx, rfl, rfl⟩
        | account path h p b hf => exact ⟨_, .accountNode path h m (fits p hf hsu), rfl, rfl⟩
        | storageNode a path h x hx => cases hsu; exact ⟨_, .storageNode a path h _ hx, rfl, rfl⟩
        | storage a path h p q b hf _ => exact ⟨_, .storageNode a path h m (fits p hf hsu), rfl, rfl⟩
        | bytecode a h c hc => cases hsu; exact ⟨_, .bytecode a h _ hc, rfl, rfl⟩
        | bytecodeWithProof a h c p b hc _ => cases hsu; exact ⟨_, .bytecode a h _ hc, rfl, rfl⟩
      obtain ⟨w', h5, h6, h7⟩ := h4
      have h8 := C51_state_roundtrip key w' h5
      rw [h6, h3] at h8
      cases h8
      rw [hs] at h7
      exact Option.some.inj h7
    subst hmm
    refine ⟨m', by simpa using hm', hv, bs, hm, h2 op ho key bs hp⟩
  · exact absurd (hk.ids k (hin k bs (h2 op ho k bs hp)) key (List.mem_cons_self ..) hid) hne

/-- What its tasks store and pass on came from a peer and has a proof that every other node accepts. -/
theorem C94_passed_on (es : List Ev) (s : StateNode.State) (hl : Lives n es s) (key : ContentKey.State) (content : Bytes)
    (hh : (key, content) ∈ s.held) :
    (key, content) ∈ received es ∧ validateContent n.trie key content = some .canonicallyValid ∧
      ∃ m, Fits n key content true m := by
  obtain ⟨cfg, sps, store, _, hr⟩ := hl
  obtain ⟨h1, h2⟩ := (run_inv n _ es s hr).held _ hh
  obtain ⟨m, hm⟩ := fits_of_valid h2 (by decide)
  exact ⟨h1, h2, m, by simpa using hm⟩

/-- What a lookup returns is a node or a code with the hash in the key: what a peer sent, or what is stored. -/
theorem C94_found (hq : Store.Sql n.db) (es : List Ev) (s : StateNode.State) (hl : Lives n es s) (key : ContentKey.State)
    (content : Bytes) (hk : KeysFine n (key :: keys es)) (hf : (key, content) ∈ s.found) :
    (∃ r, validateContent n.trie key content = some r ∧ r ≠ .invalid) ∧
    ∃ proof m, Fits n key content proof m ∧
      ((key, content) ∈ received es ∨ proof = false ∧
        ∃ bs, Fits n key bs true m ∧ ((key, bs) ∈ received es ∨ (key, bs) ∈ operated es)) := by
  obtain ⟨cfg, sps, store, hc, hr⟩ := hl
  rcases (run_inv n _ es s hr).found _ hf with ⟨h1, r, h2, h3⟩ | ⟨pre, post, s', rfl, h1, h2⟩
  · obtain ⟨m, hm⟩ := fits_of_valid h2 h3
    exact ⟨⟨r, h2, h3⟩, _, m, hm, .inl h1⟩
  · obtain ⟨m, h3, h4, bs, h5, h6⟩ := C94_stored_partial n hq pre s' ⟨cfg, sps, store, hc, h1⟩ key content (hk.mono (by
      intro k hk'
      rcases List.mem_cons.mp hk' with rfl | hk'
      · exact List.mem_cons_self ..
      · exact List.mem_cons_of_mem _ (keys_append hk'))) h2
    refine ⟨⟨_, h4, by decide⟩, false, m, h3, .inr ⟨rfl, bs, h5, ?_⟩⟩
    rw [received_append, operated_append]
    exact h6.imp (fun h => List.mem_append_left _ h.1) (fun h => List.mem_append_left _ h)

/-- So a reader of the state (C59) that gets its nodes from this node gets only validated ones. -/
theorem C94_reader (hq : Store.Sql n.db) (env : EvmState.Env) (he : env.trie = n.trie) (es : List Ev) (net : EvmState.Network)
    (hnet : Answered n es net) (hk : ∀ key bs, net key = some bs → KeysFine n (key :: keys es)) : EvmState.Validated env net := by
  intro key bs h
  obtain ⟨pre, post, s, rfl, hl, hf⟩ := hnet key bs h
  have := (C94_found n hq pre s hl key bs ((hk key bs h).mono (by
    intro k hk'
    rcases List.mem_cons.mp hk' with rfl | hk'
    · exact List.mem_cons_self ..
    · exact List.mem_cons_of_mem _ (keys_append hk'))) hf).1
  rw [he]
  exact this

/-! ## What the eth endpoints answer -/

section Endpoints
open Verif.EthRpc
open Verif.Trie (Commits)
open Verif.EvmState (AccountIs SlotIs)
variable {Hd Tx Rc Wd : Type} (hist : HistoryNode.Node Hd Tx Rc Wd) (hes : List HistoryNode.Ev) (es : List Ev)
  (api : Api Hd Tx Rc Wd)

/-- The endpoints for the state ask the history network only for headers. -/
def headersOnly : Api Hd Tx Rc Wd :=
  { api with history := fun key => match key with
      | .headerByHash _ => api.history key
      | .headerByNumber _ => api.history key
      | _ => none }

theorem headersOnly_blockState (block : BlockId) : blockState (headersOnly api) block = blockState api block := by
  cases block <;> rfl

theorem headersOnly_validated {api : Api Hd Tx Rc Wd} {hist : HistoryNode.Node Hd Tx Rc Wd} {hes : List HistoryNode.Ev}
    {n : Node} {es : List Ev} (hq : Store.Sql hist.db) (hs : Serves hist hes n es api) :
    HistoryValidated (headersOnly api) hist.H hist.trusted [] := by
  intro key bs h
  have hgen : ∀ h : api.history key = some bs, HistoryNodes.Genuine hist hes key bs := by
    intro h
    obtain ⟨h1, h2, pre, post, s, h3, h4, h5⟩ := hs.history key bs h
    have h6 := C91_gives hist hq pre s h4 (by
      have := hs.honest; rw [h3] at this; exact this.left) key bs (h2.mono (by
        intro k hk
        rcases List.mem_cons.mp hk with rfl | hk
        · exact List.mem_cons_self ..
        · rw [h3]; exact List.mem_cons_of_mem _ (HistoryNodes.keys_append hk))) h5
    have h7 := HistoryNodes.Good.mono h6 post
    rw [← h3] at h7
    rcases h7 with ⟨_, h7⟩ | h7
    · exact h7
    · exact absurd h7 h1
  have hnone : ∀ source, HistoryValidator.HeadersValidated
      (⟨hist.lib, hist.H, hist.net, hist.trusted, source, fun _ => none⟩ : HistoryValidator.Env Hd Tx Rc Wd) := by
    intro source k b hb
    cases hb
  cases key with
  | headerByHash k =>
    obtain ⟨hd, p, h1, h2, cache, source, _, _, h3⟩ := hgen h
    exact ⟨⟨hist.lib, hist.H, hist.net, hist.trusted, source, fun _ => none⟩, cache, hs.lib.symm, hs.net.symm, rfl, rfl,
      hnone source, (C58_by_hash _ cache k bs).mpr ⟨hd, p, h1, h2, h3⟩, fun _ _ _ _ hc => (nomatch hc)⟩
  | headerByNumber k =>
    obtain ⟨hd, p, h1, h2, cache, source, _, _, h3⟩ := hgen h
    exact ⟨⟨hist.lib, hist.H, hist.net, hist.trusted, source, fun _ => none⟩, cache, hs.lib.symm, hs.net.symm, rfl, rfl,
      hnone source, (C58_by_number _ cache k bs).mpr ⟨hd, p, h1, h2, h3⟩, fun _ _ _ _ hc => (nomatch hc)⟩
  | blockBody k => cases h
  | blockReceipts k => cases h
  | ephemeralFind k m => cases h
  | ephemeralOffer k => cases h

theorem headersOnly_state {api : Api Hd Tx Rc Wd} {hist : HistoryNode.Node Hd Tx Rc Wd} {hes : List HistoryNode.Ev}
    {n : Node} {es : List Ev} (hq : Store.Sql n.db) (hs : Serves hist hes n es api) : StateValidated (headersOnly api) := by
  intro net h
  obtain ⟨h1, h2⟩ := hs.state net h
  exact C94_reader n hq _ hs.trie es net h1 h2

/-- Whatever peers of both networks sent, in whatever order things happened: the balance that `eth_getBalance` answers for a
block is the one that the account has in the state of that block, zero if there is no account. The block is the one with this
hash, or the one with this number whose header is proven. -/
theorem C94_balance (hqh : Store.Sql hist.db) (hq : Store.Sql n.db) (hs : Serves hist hes n es api) (rounds : Nat)
    (address : Bytes) (block : BlockId) (x : BitVec 256) (he : getBalance api rounds address block = .ok x) :
    ∃ h, IsHeader api hist.H hist.trusted h block ∧ ∀ db state, Commits api.evm.trie db (api.stateRoot h) state →
      (AccountIs api.evm state (api.evm.trie.K address) none ∧ x = 0) ∨
      (∃ a, AccountIs api.evm state (api.evm.trie.K address) (some a) ∧ x = a.balance) ∨ NodeCollision api db := by
  refine C60_balance (headersOnly api) hist.H hist.trusted [] (headersOnly_validated hqh hs) (headersOnly_state hq hs) rounds
    address block x ?_
  rw [← he]
  unfold getBalance
  rw [headersOnly_blockState]
  rfl

/-- The same for `eth_getStorageAt`. -/
theorem C94_storage (hqh : Store.Sql hist.db) (hq : Store.Sql n.db) (hs : Serves hist hes n es api) (rounds : Nat)
    (address : Bytes) (slot : BitVec 256) (block : BlockId) (x : BitVec 256)
    (he : getStorageAt api rounds address slot block = .ok x) :
    ∃ h, IsHeader api hist.H hist.trusted h block ∧ ∀ db state, Commits api.evm.trie db (api.stateRoot h) state →
      (AccountIs api.evm state (api.evm.trie.K address) none ∧ x = 0) ∨
      (∃ a, AccountIs api.evm state (api.evm.trie.K address) (some a) ∧
        ∀ dbS tS, Commits api.evm.trie dbS a.storageRoot tS → SlotIs api.evm tS slot x ∨ NodeCollision api dbS) ∨
      NodeCollision api db := by
  refine C60_storage (headersOnly api) hist.H hist.trusted [] (headersOnly_validated hqh hs) (headersOnly_state hq hs) rounds
    address slot block x ?_
  rw [← he]
  unfold getStorageAt
  rw [headersOnly_blockState]
  rfl

/-- The same for `eth_getCode`. -/
theorem C94_code (hqh : Store.Sql hist.db) (hq : Store.Sql n.db) (hs : Serves hist hes n es api)
    (hempty : api.evm.trie.K [] = api.evm.keccakEmpty) (rounds : Nat) (address : Bytes) (block : BlockId) (c : Bytes)
    (he : getCode api rounds address block = .ok c) :
    ∃ h, IsHeader api hist.H hist.trusted h block ∧ ∀ db state, Commits api.evm.trie db (api.stateRoot h) state →
      (AccountIs api.evm state (api.evm.trie.K address) none ∧ c = []) ∨
      (∃ a, AccountIs api.evm state (api.evm.trie.K address) (some a) ∧ api.evm.trie.K c = a.codeHash) ∨
      NodeCollision api db := by
  refine C60_code (headersOnly api) hist.H hist.trusted [] (headersOnly_validated hqh hs) (headersOnly_state hq hs) hempty
    rounds address block c ?_
  rw [← he]
  unfold getCode
  rw [headersOnly_blockState]
  rfl

end Endpoints

/-! ## Transfers and lookups are runs of this node -/

/-- A task for content that peers offered (C53), whose validator accepts only what the validator of this node accepted, does
to the store what some tasks of this node do, so the theorems above hold of it. -/
theorem C94_transfer {P : Type} [DecidableEq P] (s : StateNode.State) (sps : ContentKey.State → Bytes → List Store.Speed)
    (task : Offer.TaskEnv (Store.Config × Store.Store) ContentKey.State P)
    (hput : ∀ st k v st' dropped, task.ops.put st k v = some (st', dropped) →
      ∃ s', StateStore.put n.db n.trie.K st.1 (sps k v) st.2 k v = .ok (s', []) ∧ st' = (st.1, s') ∧ dropped = [])
    (hvalid : ∀ k v, task.valid k v = true → (k, v) ∈ s.held)
    (t : Offer.TaskState (Store.Config × Store.Store) ContentKey.State P) (ht : t.store = s.store)
    (accepted : List ContentKey.State) (data : Option Bytes) :
    ∃ es, (∀ e ∈ es, ∃ i sps, e = .keep i sps) ∧
      run n s es = .ok { s with store := (Offer.inboundTask task t accepted data).store } := by
  refine C53_only_validated task t accepted data
    (fun st => ∃ es, (∀ e ∈ es, ∃ i sps, e = .keep i sps) ∧ run n s es = .ok { s with store := st }) ?_ ?_
  · rintro st k v st' dropped ⟨es, h1, h2⟩ ⟨h3, _⟩ _ h4
    obtain ⟨i, hi⟩ := List.mem_iff_getElem?.mp (hvalid k v h3)
    obtain ⟨s', h5, rfl, _⟩ := hput st k v st' dropped h4
    refine ⟨es ++ [.keep i (sps k v)], ?_, ?_⟩
    · intro e he
      rcases List.mem_append.mp he with he | he
      · exact h1 e he
      · exact ⟨i, sps k v, List.mem_singleton.mp he⟩
    · refine (run_snoc _ _ _ _ _).mpr ⟨_, h2, ?_⟩
      simp only [StateNode.step, hi, StateStore.step, h5]
      rfl
  · exact ⟨[], by simp, by rw [ht]; rfl⟩

/-- What a lookup (C82) returns is a node or a code with the hash in the key, too. -/
theorem C94_lookup (hq : Store.Sql n.db) (es : List Ev) (key : ContentKey.State) (hk : KeysFine n (key :: keys es))
    (c : Lookup.Ctx) (isTrace : Bool) (time : Nat) (peers : List Lookup.Enr) (s0 : Lookup.State)
    (h0 : Lookup.start c none isTrace time peers = .inr s0) (evs : List Lookup.Ev)
    (hs : Lookups.Sane evs) (s : Lookup.State) (h : Lookups.History) (hr : Lookup.run c s0 evs = some (s, h))
    (hsee : ∀ x ∈ h, ∀ i fetch see, x.1 = .task i fetch see → SawNode n es key see)
    (e : Lookup.Ev) (he : Lookups.Sane [e]) (s' : Lookup.State) (o : List Lookup.Out)
    (hstep : Lookup.step c s e = some (s', o)) (content : Bytes) (utp : Bool) (trace : Option Lookup.Trace)
    (ha : .answer (.found content utp trace) ∈ o) : ∃ proof m, Fits n key content proof m := by
  have hmono : ∀ pre post, es = pre ++ post → KeysFine n (key :: keys pre) := by
    rintro pre post rfl
    refine hk.mono fun k hk' => ?_
    rcases List.mem_cons.mp hk' with rfl | hk'
    · exact List.mem_cons_self ..
    · exact List.mem_cons_of_mem _ (keys_append hk')
  obtain ⟨sender, ⟨sent, see, ⟨x, hx, i, fetch, hev, _⟩, h2⟩, _⟩ :=
    C82_found c isTrace time peers s0 h0 evs hs s h hr e he s' o hstep content utp trace ha
  obtain ⟨h3, h4⟩ := hsee x hx i fetch see hev
  rcases h2 with h2 | ⟨_, rfl, h2⟩
  · obtain ⟨pre, post, s1, h5, h6, h7⟩ := h3 content h2
    obtain ⟨m, h8, _⟩ := C94_stored_partial n hq pre s1 h6 key content (hmono pre post h5) h7
    exact ⟨false, m, h8⟩
  · obtain ⟨pre, post, s1, h5, h6, h7⟩ := h4 _ h2
    obtain ⟨_, proof, m, h8, _⟩ := C94_found n hq pre s1 h6 key _ (hmono pre post h5) h7
    exact ⟨proof, m, h8⟩

/-! ## What the node has after it was offered much -/

/-- Items that the validator accepts with proof, that are within the radius, that the node does not have and that it has room
for: after they were offered and stored, the node answers each without its proof, and what it had before as before. -/
theorem C94_kept (s : StateNode.State) (items : List (ContentKey.State × Bytes × List Store.Speed))
    (hv : ∀ x ∈ items, validateContent n.trie x.1 x.2.1 = some .canonicallyValid) (hr : Room n s items) :
    ∃ s', run n s (feed s.held.length items) = .ok s' ∧
      (∀ x ∈ items, ∃ m, Fits n x.1 x.2.1 true m ∧ get n s' x.1 = some (retrieved x.1 m)) ∧
      ∀ key v, get n s key = some v → get n s' key = some v := by
  obtain ⟨s', h1, _, _, _, h2, h3⟩ := feed_spec n items s hv (fun x hx => by
    obtain ⟨m, hm⟩ := fits_of_valid (hv x hx) (by decide)
    exact ⟨m, (by simpa using hm : Fits n x.1 x.2.1 true m)⟩) hr
  exact ⟨s', h1, h2, h3⟩

theorem serves_of_fed {n : Node} {env : EvmState.Env} (he : env.trie = n.trie) {items : List TrieWalker.Item}
    {s' : StateNode.State}
    (hget : ∀ x ∈ items, ∃ m, Fits n x.1 x.2.encode true m ∧ get n s' x.1 = some (retrieved x.1 m))
    {ck : List UInt8 → Id → ContentKey.State} (hck : ∀ p h m, retrieved (ck p h) m = (Value.trieNode m).encode)
    (hnh : ∀ p h, namedHash (ck p h) = h) {db : List Bytes} {root : Id} (hsmall : ∀ b ∈ db, b.length ≤ 1024)
    (hin : ∀ path b, Trie.StoredAt env.trie db (.hash root) path b → ck path (env.trie.K b) ∈ items.map (·.1)) :
    EvmState.Serves env (get n s') ck db root ∨ ItemCollision n items db := by
  apply Classical.byContradiction
  intro hno
  simp only [not_or] at hno
  refine hno.1 fun path b hb => ⟨hsmall b (stored_mem hb), ?_⟩
  obtain ⟨x, hx, hxk⟩ := List.mem_map.mp (hin path b hb)
  obtain ⟨m, h1, h2⟩ := hget x hx
  have hm : n.trie.K m = n.trie.K b := by
    obtain ⟨_, _, _, _, _, h3⟩ := h1
    rw [hxk, hnh, he] at h3
    exact h3
  by_cases hmb : m = b
  · subst hmb
    rw [← hxk, h2, hxk, hck]
  · exact absurd ⟨x, hx, m, h1, b, (stored_mem hb), hmb, hm⟩ hno.2

/-- A node that gets all items of a snapshot of a state (C64) has the whole state: every node of the account trie, every node
of every storage trie, every code; each under its key and without proof, as readers of the state need them (C59). -/
theorem C94_snapshot (env : EvmState.Env) (he : env.trie = n.trie) (empty : TrieWalker.Empty)
    (hcode : env.keccakEmpty = empty.code) (src : TrieWalker.Source) (root blockHash : Id)
    (st : TrieWalker.State env.trie empty src root) :
    ∃ fuel items, (∀ m, fuel ≤ m → TrieWalker.snapshotItems env.trie empty src blockHash m root = some items) ∧
      ∀ sps s, Room n s (asFed sps items) → ∃ s', run n s (feed s.held.length (asFed sps items)) = .ok s' ∧
        (EvmState.Serves env (get n s') .accountTrieNode st.nodes root ∨ ItemCollision n items st.nodes) ∧
        (∀ address a, EvmState.AccountIs env st.trie address (some a) → a.storageRoot ≠ empty.root →
          EvmState.Serves env (get n s') (.storageTrieNode address) (st.storageNodes address) a.storageRoot ∨
            ItemCollision n items (st.storageNodes address)) ∧
        EvmState.ServesCode env (get n s') st.trie := by
  obtain ⟨fuel, items, h1, h2, _, h3⟩ := C64_snapshot env.trie empty src root blockHash st
  refine ⟨fuel, items, h1, fun sps s hr => ?_⟩
  obtain ⟨s', h4, h5, _⟩ := C94_kept n s (asFed sps items) (by
    intro x hx
    obtain ⟨y, hy, rfl⟩ := List.mem_map.mp hx
    rw [← he]
    exact h3 y hy) hr
  have hget : ∀ x ∈ items, ∃ m, Fits n x.1 x.2.encode true m ∧ get n s' x.1 = some (retrieved x.1 m) :=
    fun x hx => h5 (x.1, x.2.encode, sps x) (List.mem_map_of_mem (f := fun x : TrieWalker.Item => (x.1, x.2.encode, sps x)) hx)
  refine ⟨s', h4, ?_, ?_, ?_⟩
  · exact serves_of_fed he hget (fun _ _ _ => rfl) (fun _ _ => rfl) st.small
      (fun path b hb => (h2 _).mpr (.account path b hb))
  · rintro address a ⟨v, hv, ha⟩ hne
    obtain ⟨_, _, hsm⟩ := st.storage address v a hv ha hne
    exact serves_of_fed he hget (fun _ _ _ => rfl) (fun _ _ => rfl) hsm
      (fun path b hb => (h2 _).mpr (.storage address v a path b hv ha hne hb))
  · rintro address a ⟨v, hv, ha⟩ hne
    obtain ⟨x, hx, hxk⟩ := List.mem_map.mp ((h2 _).mpr (.code address v a hv ha (by rw [← hcode]; exact hne)))
    obtain ⟨m, h6, h7⟩ := hget x hx
    refine ⟨m, ?_, ?_, ?_⟩
    · obtain ⟨w, hb, _, _, hsub, _⟩ := h6
      rw [hxk] at hb
      cases hb with
      | bytecode _ _ c hc => cases hsub; exact hc
      | bytecodeWithProof _ _ c p b hc _ => cases hsub; exact hc
    · obtain ⟨_, _, _, _, _, h8⟩ := h6
      rw [hxk] at h8
      rw [he]
      exact h8
    · rw [← hxk, h7, hxk]
      rfl

theorem serves_mono {env : EvmState.Env} {net net' : EvmState.Network} {ck : List UInt8 → Id → ContentKey.State}
    {db : List Bytes} {root : Id} (h : EvmState.Serves env net ck db root)
    (hn : ∀ key v, net key = some v → net' key = some v) : EvmState.Serves env net' ck db root :=
  fun path b hb => ⟨(h path b hb).1, hn _ _ (h path b hb).2⟩

section SnapshotEndpoints
open Verif.EthRpc
variable {Hd Tx Rc Wd : Type} (api : Api Hd Tx Rc Wd)

/-- From the snapshot to the answer: a node that has the header of the block and got all items of a snapshot of its state
answers the balance of every address and every slot of every account with storage, if a lookup gives what is stored. -/
theorem C94_snapshot_served (he : api.evm.trie = n.trie) (empty : TrieWalker.Empty) (hcode : api.evm.keccakEmpty = empty.code)
    (src : TrieWalker.Source) (blockHash : Id) (block : BlockId) (h : Hd) (hh : Answers api block h)
    (st : TrieWalker.State api.evm.trie empty src (api.stateRoot h)) (hb : EvmState.NoBareHash api.evm) :
    ∃ fuel items,
      (∀ m, fuel ≤ m → TrieWalker.snapshotItems api.evm.trie empty src blockHash m (api.stateRoot h) = some items) ∧
      ∀ sps s, Room n s (asFed sps items) → ∃ s', run n s (feed s.held.length (asFed sps items)) = .ok s' ∧
        ∀ net, api.state = some net → (∀ key v, get n s' key = some v → net key = some v) →
          ∀ rounds, 65 ≤ rounds → ∀ address x, EvmState.AccountIs api.evm st.trie (api.evm.trie.K address) x →
            (getBalance api rounds address block = .ok ((x.map (·.balance)).getD 0) ∨ ItemCollision n items st.nodes) ∧
            ∀ a, x = some a → a.storageRoot ≠ empty.root → ∀ tS, Trie.Commits api.evm.trie
              (st.storageNodes (api.evm.trie.K address)) a.storageRoot tS → tS.NoEmptyKeys →
              ∀ slot y, EvmState.SlotIs api.evm tS slot y →
                getStorageAt api rounds address slot block = .ok y ∨ ItemCollision n items st.nodes ∨
                  ItemCollision n items (st.storageNodes (api.evm.trie.K address)) := by
  obtain ⟨fuel, items, h1, h2⟩ := C94_snapshot n api.evm he empty hcode src (api.stateRoot h) blockHash st
  refine ⟨fuel, items, h1, fun sps s hr => ?_⟩
  obtain ⟨s', h3, h4, h5, _⟩ := h2 sps s hr
  refine ⟨s', h3, fun net hst hnet rounds hro address x hx => ⟨?_, ?_⟩⟩
  · rcases h4 with h4 | h4
    · left
      rw [C60_balance_complete api rounds address block h net st.nodes st.trie x hh hst (serves_mono h4 hnet)
        st.genuine.commits st.noEmptyKeys hb hro hx]
      cases x <;> rfl
    · exact .inr h4
  · rintro a rfl hne tS hcS hwS slot y hy
    rcases h4 with h4 | h4
    · rcases h5 _ a hx hne with h5 | h5
      · exact .inl (C60_storage_complete api rounds address block h net st.nodes _ st.trie tS a slot y hh hst
          (serves_mono h4 hnet) (serves_mono h5 hnet) st.genuine.commits st.noEmptyKeys hcS hwS hb hro hx hy)
      · exact .inr (.inr h5)
    · exact .inr (.inl h4)

end SnapshotEndpoints

/-! ## Where the code differs -/

/-- Whatever bytes a peer makes up, they are the root node of some trie, and the node stores them, with any block hash: the
header of the block is not asked for. So what is stored need not belong to the state of a block. -/
theorem C94_any_root_violated (b : Bytes) (hb : b.length ≤ 1024) (blockHash : Id) (s : StateNode.State) (sps : List Store.Speed)
    (hr : Room n s [(.accountTrieNode [] (n.trie.K b), (Value.accountTrieNode [b] blockHash).encode, sps)]) :
    ∃ s', run n s [.offered (.accountTrieNode [] (n.trie.K b)) (Value.accountTrieNode [b] blockHash).encode,
        .keep s.held.length sps] = .ok s' ∧
      get n s' (.accountTrieNode [] (n.trie.K b)) = some (Value.trieNode b).encode := by
  have hbel : Belongs (.accountTrieNode [] (n.trie.K b)) (.accountTrieNode [b] blockHash) :=
    .account _ _ _ _ ⟨by simp, by simpa using hb⟩
  have hd := C51_state_roundtrip _ _ hbel
  obtain ⟨s', h1, h2, _⟩ := C94_kept n s _ (by
    intro x hx
    rw [List.mem_singleton] at hx
    subst hx
    simp only [validateContent, hd, validateValue, validateAccountTrieNode, Trie.validateNodeTrieProof,
      Trie.validateTrieProof, Trie.follow, Trie.checkNodeHash, ne_eq, not_true, if_false, if_true, Except.map]) hr
  refine ⟨s', h1, ?_⟩
  obtain ⟨m, h3, h4⟩ := h2 _ (List.mem_singleton_self _)
  obtain ⟨v, hv, he, _, hs, _⟩ := h3
  have := C51_state_roundtrip _ _ hv
  rw [he, hd] at this
  cases this
  cases hs
  exact h4

end Verif.Props

/-! ## Concrete cases -/

namespace Verif.StateNodeExample
open Verif Verif.StateContent Verif.StateNode Verif.Props Verif.Props.StateNodes

/-- The snapshot of `TrieWalkerExample`. -/
def node : Node := ⟨TrieWalkerExample.env, StoreExample.env⟩
def cfg : Store.Config := ⟨0, 100000, 2 ^ 256 - 1, 0⟩
theorem created : Store.create StoreExample.env cfg [] [] = .ok StoreExample.start := by decide +kernel
def items : List TrieWalker.Item :=
  (TrieWalker.snapshotItems TrieWalkerExample.env TrieWalkerExample.empty TrieWalkerExample.src 77 5
    (TrieWalkerExample.K [1])).getD []

example : TrieWalker.snapshotItems TrieWalkerExample.env TrieWalkerExample.empty TrieWalkerExample.src 77 5
    (TrieWalkerExample.K [1]) = some items ∧ items.length = 6 := by decide +kernel

theorem room : Room node (fresh (cfg, StoreExample.start)) (asFed (fun _ => []) items) := by
  refine ⟨by decide +kernel, by decide +kernel, by decide +kernel, by decide +kernel⟩

def evm : EvmState.Env := ⟨TrieWalkerExample.env, some, TrieWalkerExample.empty.code⟩

example := C94_snapshot node evm rfl TrieWalkerExample.empty rfl TrieWalkerExample.src _ 77 TrieWalkerExample.state
example := C94_kept node (fresh (cfg, StoreExample.start)) (asFed (fun _ => []) items)
  (by decide +kernel) room

/-- All six are stored; the nodes and the code without proof. -/
example : (run node (fresh (cfg, StoreExample.start)) (feed 0 (asFed (fun _ => []) items))).map (fun s =>
    decide (items.map (fun x => get node s x.1) = [some (Value.trieNode [1]).encode, some (Value.trieNode [2]).encode,
      some (Value.bytecode [1, 1]).encode, some (Value.trieNode [4]).encode, some (Value.trieNode [5]).encode,
      some (Value.trieNode [3]).encode])) = .ok true := by decide +kernel

/-- No two different nodes in it have the same hash. -/
example : ¬ ItemCollision node items TrieWalkerExample.state.nodes := by
  rintro ⟨x, hx, m, ⟨v, hb, he, _, hs, _⟩, b, hbn, hne, hk⟩
  have h1 : ∀ x ∈ items, ∀ b ∈ ([[1], [2], [3]] : List Bytes),
      ((Value.decode x.1 x.2.encode).bind subject).all (fun m => decide (TrieWalkerExample.K m = TrieWalkerExample.K b → m = b)) = true := by
    decide +kernel
  have h2 := h1 x hx b hbn
  have h3 := C51_state_roundtrip _ _ hb
  rw [he] at h3
  rw [h3] at h2
  simp only [Option.bind_some, hs, Option.all_some, decide_eq_true_eq] at h2
  exact hne (h2 hk)

/-! ## A node with the state of `EvmStateExample` -/

def trie : Trie.Env := (EvmStateExample.env (EvmStateExample.K [3])).trie
def node' : Node := ⟨trie, StoreExample.env⟩
def rootKey : ContentKey.State := .accountTrieNode [] (EvmStateExample.K [1])
def leafKey : ContentKey.State := .accountTrieNode [2] (EvmStateExample.K [2])

/-- A peer offers the root with a proof, which is stored; a lookup gets the other node, without a proof; bytes that have
another hash are refused; a lookup for the root gets what is stored. Then the node is killed while it stores once more. -/
def day : List Ev :=
  [.offered rootKey (Value.accountTrieNode [[1]] 7).encode, .keep 0 [], .fetched leafKey (Value.trieNode [2]).encode,
    .fetched leafKey (Value.trieNode [3]).encode, .offered rootKey (Value.trieNode [1]).encode, .asked rootKey]
def night : List Ev := [.keepKilled 0 [] (some 0) [] cfg []]

theorem day_ends : (run node' (fresh (cfg, StoreExample.start)) day).map (fun s => decide
    (s.found = [(leafKey, (Value.trieNode [2]).encode), (rootKey, (Value.trieNode [1]).encode)] ∧
      s.held = [(rootKey, (Value.accountTrieNode [[1]] 7).encode)] ∧
      get node' s rootKey = some (Value.trieNode [1]).encode ∧ get node' s leafKey = none)) = .ok true := by decide +kernel

theorem day_runs : ∃ s, Lives node' day s ∧
    s.found = [(leafKey, (Value.trieNode [2]).encode), (rootKey, (Value.trieNode [1]).encode)] ∧
    s.held = [(rootKey, (Value.accountTrieNode [[1]] 7).encode)] ∧ get node' s rootKey = some (Value.trieNode [1]).encode := by
  have h := day_ends
  cases hr : run node' (fresh (cfg, StoreExample.start)) day with
  | error e => rw [hr] at h; cases h
  | ok s =>
    rw [hr] at h
    injection h with h
    obtain ⟨h1, h2, h3, _⟩ := of_decide_eq_true h
    exact ⟨s, ⟨cfg, [], StoreExample.start, created, hr⟩, h1, h2, h3⟩

/-- What was stored is there after the kill. -/
example : (run node' (fresh (cfg, StoreExample.start)) (day ++ night)).map (fun s => decide
    (get node' s rootKey = some (Value.trieNode [1]).encode ∧ s.held = [])) = .ok true := by decide +kernel

theorem fine : KeysFine node' (rootKey :: leafKey :: keys day) := by
  have h : ∀ a ∈ rootKey :: leafKey :: keys day, a = rootKey ∨ a = leafKey := by decide +kernel
  refine ⟨fun a ha => ?_, by decide +kernel⟩
  rcases h a ha with rfl | rfl
  · exact ⟨by decide, by decide⟩
  · exact ⟨by decide, by decide⟩

example (s : StateNode.State) (hl : Lives node' day s) (hg : get node' s rootKey = some (Value.trieNode [1]).encode) :=
  C94_stored_partial node' StoreExample.sql day s hl rootKey _ (fine.mono (by simp +contextual)) hg

/-! ## The endpoints, with the history node of `HistoryNodeExample` -/

/-- The endpoints get the header of block 5 and the two nodes. -/
def api : EthRpc.Api UInt8 UInt8 UInt8 UInt8 where
  lib := HistoryExample.lib
  net := HistoryExample.net
  evm := EvmStateExample.env (EvmStateExample.K [3])
  stateRoot _ := EvmStateExample.K [1]
  history key := if key = .headerByHash 1 then some HistoryNodeExample.header else none
  state := some fun key => if key = rootKey then some (Value.trieNode [1]).encode
    else if key = leafKey then some (Value.trieNode [2]).encode else none

theorem serves : Serves HistoryNodeExample.node HistoryNodeExample.day node' day api where
  lib := rfl
  net := rfl
  trie := rfl
  honest := by
    intro k bs h
    have : HistoryNodes.operated HistoryNodeExample.day = [] := by decide +kernel
    rw [this] at h
    cases h
  history := by
    intro key bs h
    simp only [api] at h
    split at h
    · next hk =>
      subst hk
      cases h
      obtain ⟨s, h1, h2, _⟩ := HistoryNodeExample.day_runs
      refine ⟨?_, by unfold HistoryNodes.NoIdCollision; decide +kernel, HistoryNodeExample.day, [], s,
        (List.append_nil _).symm, h1, h2⟩
      have : HistoryNodes.operated HistoryNodeExample.day = [] := by decide +kernel
      rw [this]
      simp
    · cases h
  state := by
    intro net h
    cases h
    obtain ⟨s, h1, h2, _, _⟩ := day_runs
    constructor
    · intro key bs h
      refine ⟨day, [], s, (List.append_nil _).symm, h1, ?_⟩
      rw [h2]
      simp only at h
      split at h
      · next hk => subst hk; cases h; simp
      · split at h
        · next hk => subst hk; cases h; simp
        · cases h
    · intro key bs h
      simp only at h
      split at h
      · next hk => subst hk; exact fine.mono (by simp +contextual)
      · split at h
        · next hk => subst hk; exact fine.mono (by simp +contextual)
        · cases h

/-- The account of `EvmStateExample` has 2, another address nothing. -/
theorem balances : EthRpc.getBalance api 65 EvmStateExample.address (.hash 1) = .ok 2 ∧
    EthRpc.getBalance api 65 EvmStateExample.nobody (.hash 1) = .ok 0 := by decide +kernel

example := C94_balance node' HistoryNodeExample.node HistoryNodeExample.day day api HistoryNodeExample.sql StoreExample.sql serves
  65 EvmStateExample.address (.hash 1) 2 balances.1

/-- With the state of `TrieWalkerExample`. -/
def api' : EthRpc.Api UInt8 UInt8 UInt8 UInt8 := { api with evm := evm, stateRoot := fun _ => TrieWalkerExample.K [1] }

theorem answers : EthRpc.Answers api' (.hash 1) 5 := by
  refine ⟨_, HistoryNodeExample.header, .hashes (Vector.replicate 15 0), rfl, rfl, ?_⟩
  exact C57_round_trip HistoryExample.lib_faithful (.byHash _ _ _ (by decide) (by rfl)) rfl (by decide +kernel)

theorem noBareHash : EvmState.NoBareHash evm := by
  intro b h
  simp only [evm, TrieWalkerExample.env, TrieWalkerExample.n1, TrieWalkerExample.n2, TrieWalkerExample.n3, TrieWalkerExample.n4,
    TrieWalkerExample.n5, TrieWalkerExample.n6]
  repeat' split
  all_goals simp

example := C94_snapshot_served node api' rfl TrieWalkerExample.empty rfl TrieWalkerExample.src 77 (.hash 1) 5 answers
  TrieWalkerExample.state noBareHash

/-- Bytes that nobody decodes. -/
example := C94_any_root_violated node' [77, 77] (by decide) 1234 (fresh (cfg, StoreExample.start)) []
  ⟨by decide +kernel, by decide +kernel, by decide +kernel, by decide +kernel⟩

end Verif.StateNodeExample
