import Verif.Lemmas.EthRpc
import Verif.Props.EvmState
import Verif.Lemmas.ExceptEq

/-! # C60: the eth JSON-RPC endpoints

The history and the state network may answer anything that their validators accept (C37, C58). Soundness has
the alternative that something that was handed out and something genuine collide. -/

namespace Verif.Props
open Verif.ContentKey Verif.HistoryValue Verif.HistoryValidator Verif.Trie Verif.EthRpc
open Verif.EvmState (AccountIs SlotIs)

variable {Hd Tx Rc Wd : Type} (api : Api Hd Tx Rc Wd) (H : Id → Id → Id) (trusted : HeaderValidator.Trusted) (seen : List Hd)

/-- The header that every endpoint starts from is the one of the block that was asked for. -/
theorem C60_header (hv : HistoryValidated api H trusted seen) (block : BlockId) (h : Hd) (he : headerOf api block = .ok h) :
    IsHeader api H trusted h block := by
  obtain ⟨key, bs, p, hk, h1, h2⟩ := headerOf_iff.mp he
  obtain ⟨env, cache, hl, hn, hH, ht, _, ha, _⟩ := hv key bs h1
  cases block with
  | hash k =>
    simp only at hk; subst hk
    obtain ⟨h', p', h3, h4, _⟩ := (C58_by_hash env cache k bs).mp ha
    rw [hl, hn, h2] at h3
    cases h3
    rw [hl] at h4
    exact h4
  | number n =>
    simp only at hk; subst hk
    obtain ⟨h', p', h3, h4, h5⟩ := (C58_by_number env cache n bs).mp ha
    rw [hl, hn, h2] at h3
    cases h3
    rw [hl] at h4
    rw [hH, hn, ht, hl] at h5
    exact ⟨h4, env.source, cache, p, h5⟩
  | tag => exact hk

/-- A block that is returned is the block that was asked for: whatever body its header commits to, the hashes
are those of its transactions and of its uncles in order, and the withdrawals are its withdrawals, or are
missing.
Missing: that withdrawals are never left out, see `C60_withdrawals_violated`. -/
theorem C60_block_partial (hl : api.lib.Faithful) (hv : HistoryValidated api H trusted seen) (block : BlockId) (hydrated : Bool)
    (r : RpcBlock Hd Wd) (he : getBlock api block hydrated = .ok r) :
    IsHeader api H trusted r.header block ∧
    ∀ true : Body Hd Tx Wd, CommitsBody api.lib r.header true →
      (r.transactions = true.transactions.map (fun t => api.lib.keccak (api.lib.tx.enc t)) ∧
        r.uncles = true.ommers.map (fun o => api.lib.keccak (api.lib.header.enc o)) ∧
        (r.withdrawals = true.withdrawals ∨ r.withdrawals = none)) ∨
      (∃ h ∈ seen, HashCollision api.lib (api.lib.header.enc h) (api.lib.header.enc r.header)) ∨
      ∃ bs b, api.history (.blockBody (api.lib.keccak (api.lib.header.enc r.header))) = some bs ∧
        Value.decode api.lib api.net (.blockBody (api.lib.keccak (api.lib.header.enc r.header))) bs = some (.body b) ∧
        (HashCollision api.lib (api.lib.ommers.enc b.ommers) (api.lib.ommers.enc true.ommers) ∨
          RootCollision api.lib (b.transactions.map api.lib.tx.enc) (true.transactions.map api.lib.tx.enc) ∨
          ∃ ws ws', b.withdrawals = some ws ∧ true.withdrawals = some ws' ∧
            RootCollision api.lib (ws.map api.lib.withdrawal.enc) (ws'.map api.lib.withdrawal.enc)) := by
  unfold getBlock at he
  split at he
  · cases he
  · next h hh =>
    unfold fetchBlock at he
    split at he
    · cases he
    · split at he
      · cases he
      · next b hb =>
        cases he
        refine ⟨C60_header api H trusted seen hv block h hh, fun true hc => ?_⟩
        obtain ⟨bs, h1, h2⟩ := fetchBody_ok hb
        obtain ⟨env, cache, e1, e2, -, -, hhv, ha, hs⟩ := hv _ bs h1
        obtain ⟨b', h3, h4⟩ := C58_body_sound env cache (e1 ▸ hl) hhv _ bs h true (by rw [e1]) (e1 ▸ hc) ha
        rw [e1, e2] at h3
        rw [h2] at h3
        cases h3
        rw [e1] at h4
        rcases h4 with ⟨e3, e4, e5⟩ | ⟨hb', h', p, h5, h6, h7⟩ | h4 | h4 | h4
        · exact .inl ⟨by simp only; rw [e3], by simp only; rw [e4], e5⟩
        · exact .inr (.inl ⟨h', hs _ hb' h' p h5 (by rw [e1]; exact h6), h7⟩)
        · exact .inr (.inr ⟨bs, b, h1, h2, .inl h4⟩)
        · exact .inr (.inr ⟨bs, b, h1, h2, .inr (.inl h4)⟩)
        · exact .inr (.inr ⟨bs, b, h1, h2, .inr (.inr h4)⟩)

/-- The balance is the one of the account in the state of the block, and zero if there is no account. -/
theorem C60_balance (hv : HistoryValidated api H trusted seen) (hs : StateValidated api) (rounds : Nat) (address : Bytes)
    (block : BlockId) (x : BitVec 256) (he : getBalance api rounds address block = .ok x) :
    ∃ h, IsHeader api H trusted h block ∧ ∀ db state, Commits api.evm.trie db (api.stateRoot h) state →
      (AccountIs api.evm state (api.evm.trie.K address) none ∧ x = 0) ∨
      (∃ a, AccountIs api.evm state (api.evm.trie.K address) (some a) ∧ x = a.balance) ∨
      NodeCollision api db := by
  unfold getBalance at he
  split at he
  · cases he
  · next net root hb =>
    obtain ⟨hst, h, hh, rfl⟩ := blockState_ok hb
    refine ⟨h, C60_header api H trusted seen hv block h hh, fun db state hc => ?_⟩
    have hf := EvmState.accountState_fromNet (env := api.evm) (net := net) (s := .new)
      (by intro e he; cases he) rounds (api.stateRoot h) (api.evm.trie.K address)
    generalize hr : EvmState.basic api.evm net rounds (api.stateRoot h) address .new = r at he
    obtain ⟨r1, s'⟩ := r
    have hr' : EvmState.accountState api.evm net rounds (api.stateRoot h) (api.evm.trie.K address) .new = (r1, s') := hr
    rw [hr'] at hf
    cases r1 with
    | error e => cases he
    | ok a =>
      rcases C59_account api.evm rounds (api.stateRoot h) [] net db state address a s' (by simp) (hs net hst) hc hr with
        h1 | h1
      · cases a with
        | none => cases he; exact .inl ⟨h1, rfl⟩
        | some a => cases he; exact .inr (.inl ⟨a, h1, rfl⟩)
      · exact .inr (.inr (node_collision hst hf h1))

/-- The storage value is the one of the slot in the storage of the account in the state of the block, and zero
if there is no account. -/
theorem C60_storage (hv : HistoryValidated api H trusted seen) (hs : StateValidated api) (rounds : Nat) (address : Bytes)
    (slot : BitVec 256) (block : BlockId) (x : BitVec 256) (he : getStorageAt api rounds address slot block = .ok x) :
    ∃ h, IsHeader api H trusted h block ∧ ∀ db state, Commits api.evm.trie db (api.stateRoot h) state →
      (AccountIs api.evm state (api.evm.trie.K address) none ∧ x = 0) ∨
      (∃ a, AccountIs api.evm state (api.evm.trie.K address) (some a) ∧
        ∀ dbS tS, Commits api.evm.trie dbS a.storageRoot tS → SlotIs api.evm tS slot x ∨ NodeCollision api dbS) ∨
      NodeCollision api db := by
  unfold getStorageAt at he
  split at he
  · cases he
  · next net root hb =>
    obtain ⟨hst, h, hh, rfl⟩ := blockState_ok hb
    refine ⟨h, C60_header api H trusted seen hv block h hh, fun db state hc => ?_⟩
    have hf := EvmState.storage_fromNet (env := api.evm) (net := net) (s := .new)
      (by intro e he; cases he) rounds (api.stateRoot h) address slot
    generalize hr : EvmState.storage api.evm net rounds (api.stateRoot h) address slot .new = r at he hf
    obtain ⟨r1, s'⟩ := r
    cases r1 with
    | error e => cases he
    | ok y =>
      cases he
      rcases C59_storage api.evm rounds (api.stateRoot h) [] net db state address slot x s' (by simp) (hs net hst) hc hr
        with h1 | ⟨a, h1, h2⟩ | h1
      · exact .inl h1
      · exact .inr (.inl ⟨a, h1, fun dbS tS hcS => (h2 dbS tS hcS).imp id (node_collision hst hf)⟩)
      · exact .inr (.inr (node_collision hst hf h1))

/-- The code is the one with the code hash of the account in the state of the block, and empty if there is no
account. -/
theorem C60_code (hv : HistoryValidated api H trusted seen) (hs : StateValidated api)
    (hempty : api.evm.trie.K [] = api.evm.keccakEmpty) (rounds : Nat) (address : Bytes)
    (block : BlockId) (c : Bytes) (he : getCode api rounds address block = .ok c) :
    ∃ h, IsHeader api H trusted h block ∧ ∀ db state, Commits api.evm.trie db (api.stateRoot h) state →
      (AccountIs api.evm state (api.evm.trie.K address) none ∧ c = []) ∨
      (∃ a, AccountIs api.evm state (api.evm.trie.K address) (some a) ∧ api.evm.trie.K c = a.codeHash) ∨
      NodeCollision api db := by
  unfold getCode at he
  split at he
  · cases he
  · next net root hb =>
    obtain ⟨hst, h, hh, rfl⟩ := blockState_ok hb
    refine ⟨h, C60_header api H trusted seen hv block h hh, fun db state hc => ?_⟩
    have hf := EvmState.accountState_fromNet (env := api.evm) (net := net) (s := .new)
      (by intro e he; cases he) rounds (api.stateRoot h) (api.evm.trie.K address)
    have hC := fun a s' (hr : EvmState.basic api.evm net rounds (api.stateRoot h) address .new = (.ok a, s')) =>
      C59_account api.evm rounds (api.stateRoot h) [] net db state address a s' (by simp) (hs net hst) hc hr
    split at he
    · cases he
    · next s' hr =>
      cases he
      rcases hC _ _ hr with h1 | h1
      · exact .inl ⟨h1, rfl⟩
      · rw [EvmState.basic] at hr; rw [hr] at hf
        exact .inr (.inr (node_collision hst hf h1))
    · next a s' hr =>
      have hcode : api.evm.trie.K c = a.codeHash := by
        split at he
        · next e => cases he; rw [hempty, e]
        · split at he
          · cases he
          · next c' hcc =>
            cases he
            have hrun : EvmState.run api.evm rounds (api.stateRoot h) [(net, .basic address)] = s' := by
              simp only [EvmState.run, EvmState.Request.after]
              rw [hr]
            generalize hq : EvmState.codeByHash api.evm net a.codeHash s' = q at hcc
            obtain ⟨q1, q2⟩ := q
            simp only at hcc
            subst hcc
            rw [← hrun] at hq
            exact C59_code api.evm rounds (api.stateRoot h) _ net a.codeHash c q2 hempty (by simpa using hs net hst)
              (hs net hst) hq
      rcases hC _ _ hr with h1 | h1
      · exact .inr (.inl ⟨a, h1, hcode⟩)
      · rw [EvmState.basic] at hr; rw [hr] at hf
        exact .inr (.inr (node_collision hst hf h1))

/-! ## Availability -/

/-- A block is returned, with everything in its body, if the network has its header and its body. -/
theorem C60_block_complete (hl : api.lib.Faithful) (block : BlockId) (h : Hd) (b : Body Hd Tx Wd) (bs : Bytes)
    (hh : Answers api block h) (ho : b.withdrawals ≠ none → b.ommers = [])
    (hb : api.history (.blockBody (api.lib.keccak (api.lib.header.enc h))) = some bs)
    (he : (Value.body b : Value Hd Tx Rc Wd).encode api.lib = some bs) (hlen : bs.length < 2 ^ 32) :
    getBlock api block false = .ok ⟨h, b.transactions.map (fun t => api.lib.keccak (api.lib.tx.enc t)),
      b.ommers.map (fun o => api.lib.keccak (api.lib.header.enc o)), b.withdrawals⟩ := by
  have h1 := headerOf_iff.mpr hh
  have h2 := C57_round_trip (net := api.net) hl (.body (api.lib.keccak (api.lib.header.enc h)) b ho) he hlen
  simp [getBlock, h1, fetchBlock, fetchBody, fetchHistory, hb, h2]

/-- The balance of every account is found, if the networks have the header and the nodes of the state. -/
theorem C60_balance_complete (rounds : Nat) (address : Bytes) (block : BlockId) (h : Hd) (net : EvmState.Network)
    (db : List Bytes) (state : PTrie) (x : Option Trie.Account) (hh : Answers api block h)
    (hst : api.state = some net) (hnet : EvmState.Serves api.evm net .accountTrieNode db (api.stateRoot h))
    (hc : Commits api.evm.trie db (api.stateRoot h) state) (hw : state.NoEmptyKeys)
    (hb : EvmState.NoBareHash api.evm) (hr : 65 ≤ rounds) (hx : AccountIs api.evm state (api.evm.trie.K address) x) :
    getBalance api rounds address block = .ok (match x with | none => 0 | some a => a.balance) := by
  have h1 := headerOf_iff.mpr hh
  have h2 := C59_account_complete api.evm rounds (api.stateRoot h) [] net db state address x (by simp) hnet hc hw hb hr hx
  have h3 : (EvmState.basic api.evm net rounds (api.stateRoot h) address .new).1 = .ok x := h2
  simp only [getBalance, blockState, hst, h1, h3]
  cases x <;> rfl

/-- Every slot of every account is found, if the networks have the header and the nodes of the state and of the
storage. -/
theorem C60_storage_complete (rounds : Nat) (address : Bytes) (block : BlockId) (h : Hd) (net : EvmState.Network)
    (db dbS : List Bytes) (state tS : PTrie) (a : Trie.Account) (slot x : BitVec 256) (hh : Answers api block h)
    (hst : api.state = some net) (hnet : EvmState.Serves api.evm net .accountTrieNode db (api.stateRoot h))
    (hnetS : EvmState.Serves api.evm net (.storageTrieNode (api.evm.trie.K address)) dbS a.storageRoot)
    (hc : Commits api.evm.trie db (api.stateRoot h) state) (hw : state.NoEmptyKeys)
    (hcS : Commits api.evm.trie dbS a.storageRoot tS) (hwS : tS.NoEmptyKeys)
    (hb : EvmState.NoBareHash api.evm) (hr : 65 ≤ rounds)
    (ha : AccountIs api.evm state (api.evm.trie.K address) (some a)) (hx : SlotIs api.evm tS slot x) :
    getStorageAt api rounds address slot block = .ok x := by
  have h1 := headerOf_iff.mpr hh
  have h2 : (EvmState.storage api.evm net rounds (api.stateRoot h) address slot .new).1 = .ok x :=
    C59_storage_complete_partial api.evm rounds (api.stateRoot h) [] net db dbS state tS address a slot x (by simp)
      ⟨hnet, hnetS⟩ hc hw hcS hwS hb hr ha hx
  simp only [getStorageAt, blockState, hst, h1, h2]

/-- The code of every account is found, if the networks have the header, the nodes of the state and the code. -/
theorem C60_code_complete (rounds : Nat) (address : Bytes) (block : BlockId) (h : Hd) (net : EvmState.Network)
    (db : List Bytes) (state : PTrie) (x : Option Trie.Account) (hh : Answers api block h)
    (hst : api.state = some net) (hv : EvmState.Validated api.evm net)
    (hnet : EvmState.Serves api.evm net .accountTrieNode db (api.stateRoot h))
    (hcode : EvmState.ServesCode api.evm net state)
    (hc : Commits api.evm.trie db (api.stateRoot h) state) (hw : state.NoEmptyKeys)
    (hb : EvmState.NoBareHash api.evm) (hr : 65 ≤ rounds) (hx : AccountIs api.evm state (api.evm.trie.K address) x) :
    (∃ c, getCode api rounds address block = .ok c) ∨ NodeCollision api db := by
  have h1 := headerOf_iff.mpr hh
  have h2 := C59_account_complete api.evm rounds (api.stateRoot h) [] net db state address x (by simp) hnet hc hw hb hr hx
  generalize hq : EvmState.basic api.evm net rounds (api.stateRoot h) address
    (EvmState.run api.evm rounds (api.stateRoot h) []) = q at h2
  obtain ⟨q1, s'⟩ := q
  simp only at h2
  subst h2
  cases x with
  | none =>
    refine .inl ⟨[], ?_⟩
    simp only [EvmState.run] at hq
    simp only [getCode, blockState, hst, h1, hq]
  | some a =>
    have hcc := C59_code_complete api.evm rounds (api.stateRoot h) [] [] net net db state address a s' hc
      (by simpa using ⟨hv, hcode⟩) hcode hq
    have hrun : EvmState.run api.evm rounds (api.stateRoot h) ([] ++ [(net, .basic address)]) = s' := by
      simp only [List.nil_append, EvmState.run, EvmState.Request.after] at hq ⊢
      rw [hq]
    rw [hrun] at hcc
    rcases hcc with ⟨c, hcc⟩ | hcol
    · left
      simp only [EvmState.run] at hq
      simp only [getCode, blockState, hst, h1, hq]
      split
      · exact ⟨[], rfl⟩
      · exact ⟨c, by rw [hcc]⟩
    · right
      have hf := EvmState.accountState_fromNet (env := api.evm) (net := net) (s := .new)
        (by intro e he; cases he) rounds (api.stateRoot h) (api.evm.trie.K address)
      simp only [EvmState.run, EvmState.basic] at hq
      rw [hq] at hf
      exact node_collision hst hf hcol

/-! ## What is refused and what goes wrong -/

/-- Block tags and full transactions are refused, and without a state network all state requests are, whatever
the networks answer. -/
theorem C60_unsupported (rounds : Nat) (address : Bytes) (slot : BitVec 256) (block : BlockId) (hydrated : Bool) :
    getBlock api .tag hydrated = .error .tag ∧
    (∀ r, getBlock api block true ≠ .ok r) ∧
    (api.state = none → getBalance api rounds address block = .error .stateDisabled ∧
      getStorageAt api rounds address slot block = .error .stateDisabled ∧
      getCode api rounds address block = .error .stateDisabled) ∧
    (∀ net, api.state = some net → getBalance api rounds address .tag = .error .tag ∧
      getStorageAt api rounds address slot .tag = .error .tag ∧ getCode api rounds address .tag = .error .tag) := by
  refine ⟨rfl, ?_, ?_, ?_⟩
  · intro r h
    unfold getBlock at h
    split at h
    · cases h
    · simp [fetchBlock] at h
  · intro h
    simp [getBalance, getStorageAt, getCode, blockState, h]
  · intro net h
    simp [getBalance, getStorageAt, getCode, blockState, h, headerOf]

/-- A returned block is **not** always complete: for every block with withdrawals, the history network may hold
validated content with which the block is returned without its withdrawals. -/
theorem C60_withdrawals_violated (hl : api.lib.Faithful) (block : BlockId) (hd : Hd) (txs : List Tx) (ws : List Wd)
    (bs : Bytes) (hh : Answers api block hd) (hc : CommitsBody api.lib hd ⟨txs, [], some ws⟩)
    (he : (Value.body ⟨txs, [], none⟩ : Value Hd Tx Rc Wd).encode api.lib = some bs) (hlen : bs.length < 2 ^ 32)
    (env : HistoryValidator.Env Hd Tx Rc Wd) (cache : List HeaderValidator.Summary) (henv : env.lib = api.lib)
    (hans : AnswersHeader env hd)
    (hb : api.history (.blockBody (api.lib.keccak (api.lib.header.enc hd))) = some bs) :
    Accepts env cache (.blockBody (api.lib.keccak (api.lib.header.enc hd))) bs ∧
    getBlock api block false = .ok ⟨hd, txs.map fun t => api.lib.keccak (api.lib.tx.enc t), [], none⟩ := by
  constructor
  · rw [← henv]
    exact (C58_withdrawals_violated env cache (henv ▸ hl) hd txs ws (henv ▸ hc) hans (henv ▸ he) hlen).1
  · exact C60_block_complete api hl block hd ⟨txs, [], none⟩ bs hh (fun _ => rfl) hb he hlen

end Verif.Props

namespace Verif.EthRpcExample
open Verif.ContentKey Verif.HistoryValue Verif.HistoryValidator Verif.Trie Verif.EthRpc Verif.Props
open Verif.HistoryExample (lib lib_faithful)

/-- The bytes of the body of the block 5. -/
def body : Bytes := ((Value.body ⟨[2, 3], [], none⟩ : Value UInt8 UInt8 UInt8 UInt8).encode lib).getD []

/-- A network with one block before the merge, its body, and the state of `EvmStateExample`. -/
def api (header : Bytes) : Api UInt8 UInt8 UInt8 UInt8 where
  lib := lib
  net := HistoryExample.net
  evm := EvmStateExample.env (EvmStateExample.K [3])
  stateRoot _ := EvmStateExample.K [1]
  history
    | .headerByHash k => if k = 1 then some header else none
    | .headerByNumber n => if n = 5 then some header else none
    | .blockBody k => if k = 1 then some body else none
    | _ => none
  state := some (EvmStateExample.net [[1], [2], [3]])

/-- Its answers are validated, it answers the header by hash and by number, and the body. -/
theorem example_api : ∃ header, HistoryValidated (api header) HistoryExample.treeHash HistoryExample.trusted [5] ∧ StateValidated (api header) ∧
    Answers (api header) (.hash 1) 5 ∧ Answers (api header) (.number 5) 5 := by
  obtain ⟨q, hq⟩ := HistoryExample.header_proof
  obtain ⟨bs, h1, h2, h3⟩ := C58_honest_header
    ⟨lib, HistoryExample.treeHash, HistoryExample.net, HistoryExample.trusted, fun _ => none, fun _ => none⟩ []
    lib_faithful 5 (.hashes q) (by decide) (by rfl) hq
  have hd : ∀ k, Value.decode lib HistoryExample.net (.headerByHash k) bs = some (.header 5 (.hashes q)) := by
    intro k
    obtain rfl := Option.some.inj h1
    exact C57_round_trip lib_faithful (.byHash _ _ _ (by decide) (by rfl)) rfl (by
      rw [encodeHeaderWithProof, container2_length]
      have := proof_length (.hashes q)
      simp only [encodeHeader, lib, HistoryExample.byte, List.take, List.length_cons, List.length_nil]
      omega)
  have hd' : ∀ k, Value.decode lib HistoryExample.net (.headerByNumber k) bs = some (.header 5 (.hashes q)) :=
    fun _ => hd 1
  have hval : HeadersValidated (⟨lib, HistoryExample.treeHash, HistoryExample.net, HistoryExample.trusted, fun _ => none,
      fun k => if k = 1 then some bs else none⟩ : HistoryValidator.Env UInt8 UInt8 UInt8 UInt8) := by
    intro k b hb
    simp only at hb
    split at hb
    · next hk =>
      subst hk
      obtain rfl := Option.some.inj hb
      exact ⟨fun _ => none, fun _ => none, [], h2⟩
    · cases hb
  have hseen : ∀ k hb (h : UInt8) p, (if k = (1 : Id) then some bs else none) = some hb →
      Value.decode lib HistoryExample.net (.headerByHash k) hb = some (.header h p) → h ∈ [(5 : UInt8)] := by
    intro k hb h p h4 h5
    split at h4
    · obtain rfl := Option.some.inj h4
      rw [hd] at h5
      cases h5
      simp
    · cases h4
  refine ⟨bs, ?_, ?_, ?_, ?_⟩
  · intro key b hb
    refine ⟨⟨lib, HistoryExample.treeHash, HistoryExample.net, HistoryExample.trusted, fun _ => none,
      fun k => if k = 1 then some bs else none⟩, [], rfl, rfl, rfl, rfl, hval, ?_, hseen⟩
    cases key with
    | headerByHash k =>
      simp only [api] at hb
      split at hb
      · next e => subst e; obtain rfl := Option.some.inj hb; exact (C58_by_hash ..).mpr ((C58_by_hash ..).mp h2)
      · cases hb
    | headerByNumber n =>
      simp only [api] at hb
      split at hb
      · next e => subst e; obtain rfl := Option.some.inj hb; exact (C58_by_number ..).mpr ((C58_by_number ..).mp h3)
      · cases hb
    | blockBody k =>
      simp only [api] at hb
      split at hb
      · next e =>
        subst e; obtain rfl := Option.some.inj hb
        exact C58_honest_body _ [] lib_faithful 5 ⟨[2, 3], [], none⟩ ⟨by rfl, by rfl, by rfl⟩ (fun _ => rfl)
          ⟨bs, .hashes q, rfl, hd 1⟩ rfl (by decide)
      · cases hb
    | blockReceipts k => simp [api] at hb
    | ephemeralFind k n => simp [api] at hb
    | ephemeralOffer k => simp [api] at hb
  · intro net h
    obtain rfl := Option.some.inj h
    exact EvmStateExample.validated _ _ (by decide)
  · exact ⟨_, bs, .hashes q, rfl, rfl, hd 1⟩
  · exact ⟨_, bs, .hashes q, rfl, rfl, hd' 5⟩

/-- What the endpoints answer in it. -/
example : ∃ header, getBlock (api header) (.number 5) false = .ok ⟨5, [1, 1], [], none⟩ ∧
    getBlock (api header) (.hash 1) false = .ok ⟨5, [1, 1], [], none⟩ ∧
    getBalance (api header) 65 EvmStateExample.address (.number 5) = .ok 2 ∧
    getBalance (api header) 65 EvmStateExample.nobody (.hash 1) = .ok 0 ∧
    getStorageAt (api header) 65 EvmStateExample.address EvmStateExample.slot (.hash 1) = .ok 258 := by
  obtain ⟨header, hv, hs, h1, h2⟩ := example_api
  refine ⟨header, ?_, ?_, ?_, ?_, ?_⟩
  · exact C60_block_complete (api header) lib_faithful (.number 5) 5 ⟨[2, 3], [], none⟩ body h2 (fun _ => rfl) rfl rfl
      (by decide)
  · exact C60_block_complete (api header) lib_faithful (.hash 1) 5 ⟨[2, 3], [], none⟩ body h1 (fun _ => rfl) rfl rfl
      (by decide)
  · exact C60_balance_complete (api header) 65 EvmStateExample.address (.number 5) 5 _ _ _ _ h2 rfl
      (EvmStateExample.serves_account _) (EvmStateExample.commits _) EvmStateExample.noEmptyKeys
      (EvmStateExample.noBareHash _) (by omega) (EvmStateExample.account_is _)
  · exact C60_balance_complete (api header) 65 EvmStateExample.nobody (.hash 1) 5 _ _ _ none h1 rfl
      (EvmStateExample.serves_account _) (EvmStateExample.commits _) EvmStateExample.noEmptyKeys
      (EvmStateExample.noBareHash _) (by omega) (EvmStateExample.nobody_is _)
  · exact C60_storage_complete (api header) 65 EvmStateExample.address (.hash 1) 5 _ _ _ _ _
      (EvmStateExample.account (EvmStateExample.K [3])) _ _ h1 rfl (EvmStateExample.serves_account _)
      (EvmStateExample.serves_storage _) (EvmStateExample.commits _) EvmStateExample.noEmptyKeys
      (EvmStateExample.storage_commits _)
      (.leaf _ _ (by intro h; have := congrArg List.length h; simp [hexDigits] at this))
      (EvmStateExample.noBareHash _) (by omega) (EvmStateExample.account_is _) (EvmStateExample.slot_is _)

end Verif.EthRpcExample
