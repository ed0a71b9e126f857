import Verif.Props.StateFlowSpec
import Verif.Props.StateNode
import Verif.Props.StateBridge
import Verif.Props.StateDiff

/-! # C97: the states of many blocks, from the bridges to the eth endpoints -/

namespace Verif.Props
open Verif Verif.StateContent Verif.StateNode Verif.Props.StateNodes Verif.Props.StateFlow
open Verif.TrieWalker (Item Source Changes Apart)

/-- What is gossiped for the blocks is valid and comes once per block; and it is enough: everything that belongs to the state
of any of the blocks belongs to the first state or was gossiped for one of the blocks. -/
theorem C97_offered (env : Trie.Env) (empty : TrieWalker.Empty) (first : At env empty) (l : List (At env empty))
    (batches : List (List Item)) (h : Course env empty first l batches) :
    (∀ items ∈ batches, (items.map (·.1)).Nodup ∧
      ∀ item ∈ items, validateContent env item.1 item.2.encode = some .canonicallyValid) ∧
    ∀ a ∈ l, ∀ key, a.state.Content key → Gossiped first batches key := by
  induction h with
  | first =>
    refine ⟨by simp, fun a ha key hk => ?_⟩
    rw [List.mem_singleton] at ha
    subst ha
    exact .inl hk
  | block old new past before diff bh fuel items _ hch hap h ih =>
    obtain ⟨n, items', h1, _, h2, h3, h4⟩ := C66_changes env empty _ _ diff _ _ bh old.state new.state hch hap
    have e := h1 (max n fuel) (Nat.le_max_left _ _)
    rw [TrieWalker.diffItems_more (Nat.le_max_right n fuel) h] at e
    cases e
    have mono : ∀ key, Gossiped first before key → Gossiped first (before ++ [items]) key := by
      rintro key (hk | ⟨x, hx, hk⟩)
      · exact .inl hk
      · exact .inr ⟨x, List.mem_append_left _ hx, hk⟩
    refine ⟨?_, fun a ha key hk => ?_⟩
    · intro x hx
      rcases List.mem_append.mp hx with hx | hx
      · exact ih.1 x hx
      · rw [List.mem_singleton] at hx
        subst hx
        exact ⟨h3, h4⟩
    · rcases List.mem_cons.mp ha with rfl | ha
      · by_cases ho : old.state.Content key
        · exact mono key (ih.2 old (List.mem_cons_self ..) key ho)
        · exact .inr ⟨items, List.mem_append_right _ (List.mem_singleton.mpr rfl), h2 key hk ho⟩
      · exact mono key (ih.2 a ha key hk)

/-- There is always a next block: its changes can be gossiped. -/
theorem C97_goes_on (env : Trie.Env) (empty : TrieWalker.Empty) (first old new : At env empty) (past : List (At env empty))
    (batches : List (List Item)) (h : Course env empty first (old :: past) batches) (diff : Source) (blockHash : Id)
    (hch : Changes old.state new.state diff) (hap : Apart old.state new.state) :
    ∃ fuel items, (∀ m, fuel ≤ m → TrieWalker.diffItems env empty diff blockHash m new.root = some items) ∧
      Course env empty first (new :: old :: past) (batches ++ [items]) := by
  obtain ⟨n, items, h1, _⟩ := C66_changes env empty _ _ diff _ _ blockHash old.state new.state hch hap
  exact ⟨n, items, h1, .block old new past batches diff blockHash n items h hch hap (h1 n (Nat.le_refl _))⟩

/-- Bridges that share the work and have all come to their end have together offered everything: whatever belongs to the state
of one of the blocks and not to the first state, one of the bridges has sent, valid, to every peer that its census named. -/
theorem C97_bridges {P : Type} (env : Trie.Env) (empty : TrieWalker.Empty) (first : At env empty) (l : List (At env empty))
    (batches : List (List Item)) (h : Course env empty first l batches) (total : Nat) (ht : 1 ≤ total) (limit : Nat → Nat)
    (s : Nat → StateBridge.State P) (hf : AllFinished total limit batches s) (a : At env empty) (ha : a ∈ l)
    (key : ContentKey.State) (hk : a.state.Content key) (hnot : ¬ first.state.Content key) :
    ∃ j < total, ∃ c ∈ (s j).contents, c.item.1 = key ∧ StateBridges.sentTo c = StateBridges.selected c ∧
      validateContent env c.item.1 c.item.2.encode = some .canonicallyValid := by
  obtain ⟨hv, hin⟩ := C97_offered env empty first l batches h
  rcases hin a ha key hk with h1 | ⟨items, hi, hki⟩
  · exact absurd h1 hnot
  · obtain ⟨x, hx, rfl⟩ := List.mem_map.mp hki
    have hperm := (C92_all_bridges total ht (batches.map fun items => (⟨items, true⟩ : StateBridge.Batch))).1
    have hall : ∀ bs : List (List Item),
        ((bs.map fun items => (⟨items, true⟩ : StateBridge.Batch)).takeWhile (·.ok)).length = bs.length := by
      intro bs
      induction bs with
      | nil => rfl
      | cons b bs ih => simp only [List.map_cons, List.takeWhile_cons, if_true, List.length_cons, ih]
    rw [hall, List.take_of_length_le (by simp)] at hperm
    have hmem := hperm.mem_iff.mpr (List.mem_flatMap.mpr ⟨⟨items, true⟩,
      List.mem_map_of_mem (f := fun items => (⟨items, true⟩ : StateBridge.Batch)) hi, hx⟩)
    obtain ⟨j, hj, hxj⟩ := List.mem_flatMap.mp hmem
    have hj := List.mem_range.mp hj
    obtain ⟨h2, h3⟩ := hf j hj
    obtain ⟨_, h4, h5⟩ := (C92_offered _ _ _ _ h3).2.2.2.2.1 h2
    rw [← h4] at hxj
    obtain ⟨c, hc, rfl⟩ := List.mem_map.mp hxj
    exact ⟨j, hj, c, hc, rfl, h5 c hc, (hv items hi).2 _ hx⟩

variable (n : Node)

/-- A node that is offered valid content within its radius, and has room for it, has it then, and still has what it had. -/
theorem C97_fed (s : StateNode.State) (fed : List (ContentKey.State × Bytes × List Store.Speed))
    (hv : ∀ x ∈ fed, validateContent n.trie x.1 x.2.1 = some .canonicallyValid) (hr : Room n s fed) :
    ∃ s', run n s (feed s.held.length fed) = .ok s' ∧
      ∀ key, Has n s key ∨ key ∈ fed.map (·.1) → Has n s' key := by
  obtain ⟨s', h1, h2, h3⟩ := C94_kept n s fed hv hr
  refine ⟨s', h1, ?_⟩
  rintro key (⟨bs, m, h4, h5⟩ | hk)
  · exact ⟨bs, m, h4, h3 _ _ h5⟩
  · obtain ⟨x, hx, rfl⟩ := List.mem_map.mp hk
    obtain ⟨m, h4, h5⟩ := h2 x hx
    exact ⟨x.2.1, m, h4, h5⟩

theorem serves_of_has {n : Node} {env : EvmState.Env} (he : env.trie = n.trie) {s : StateNode.State}
    {ck : List UInt8 → Id → ContentKey.State} (hck : ∀ p h m, retrieved (ck p h) m = (Value.trieNode m).encode)
    (hnh : ∀ p h, namedHash (ck p h) = h) {db : List Bytes} {root : Id} (hsmall : ∀ b ∈ db, b.length ≤ 1024)
    (hin : ∀ path b, Trie.StoredAt env.trie db (.hash root) path b → Has n s (ck path (env.trie.K b))) :
    EvmState.Serves env (get n s) ck db root ∨ HeldCollision n s db := by
  apply Classical.byContradiction
  intro hno
  simp only [not_or] at hno
  refine hno.1 fun path b hb => ⟨hsmall b (stored_mem hb), ?_⟩
  obtain ⟨bs, m, h1, h2⟩ := hin path b hb
  have hm : n.trie.K m = n.trie.K b := by
    obtain ⟨_, _, _, _, _, h3⟩ := h1
    rw [hnh, he] at h3
    exact h3
  by_cases hmb : m = b
  · subst hmb
    rw [h2, hck]
  · exact absurd ⟨_, bs, m, h1, h2, b, stored_mem hb, hmb, hm⟩ hno.2

/-- A node that has what belongs to the first state and what was gossiped for the blocks after it has the whole state of every
one of these blocks, as readers of the state need it (C59): not only of the last one. -/
theorem C97_history (env : EvmState.Env) (he : env.trie = n.trie) (empty : TrieWalker.Empty)
    (hcode : env.keccakEmpty = empty.code) (first : At env.trie empty) (l : List (At env.trie empty))
    (batches : List (List Item)) (h : Course env.trie empty first l batches) (s : StateNode.State)
    (hhas : ∀ key, Gossiped first batches key → Has n s key) (a : At env.trie empty) (ha : a ∈ l) :
    (EvmState.Serves env (get n s) .accountTrieNode a.state.nodes a.root ∨ HeldCollision n s a.state.nodes) ∧
    (∀ address x, EvmState.AccountIs env a.state.trie address (some x) → x.storageRoot ≠ empty.root →
      EvmState.Serves env (get n s) (.storageTrieNode address) (a.state.storageNodes address) x.storageRoot ∨
        HeldCollision n s (a.state.storageNodes address)) ∧
    EvmState.ServesCode env (get n s) a.state.trie := by
  have hc : ∀ key, a.state.Content key → Has n s key := fun key hk =>
    hhas key ((C97_offered env.trie empty first l batches h).2 a ha key hk)
  refine ⟨?_, ?_, ?_⟩
  · exact serves_of_has he (fun _ _ _ => rfl) (fun _ _ => rfl) a.state.small (fun path b hb => hc _ (.account path b hb))
  · rintro address x ⟨v, hv, hx⟩ hne
    obtain ⟨_, _, hsm⟩ := a.state.storage address v x hv hx hne
    exact serves_of_has he (fun _ _ _ => rfl) (fun _ _ => rfl) hsm
      (fun path b hb => hc _ (.storage address v x path b hv hx hne hb))
  · rintro address x ⟨v, hv, hx⟩ hne
    obtain ⟨bs, m, ⟨w, hb, _, _, hsub, h8⟩, h7⟩ := hc _ (.code address v x hv hx (by rw [← hcode]; exact hne))
    refine ⟨m, ?_, ?_, h7⟩
    · cases hb with
      | bytecode _ _ c hc => cases hsub; exact hc
      | bytecodeWithProof _ _ c p b hc _ => cases hsub; exact hc
    · rw [he]
      exact h8

section Endpoints
open Verif.EthRpc
variable {Hd Tx Rc Wd : Type} (api : Api Hd Tx Rc Wd)

/-- So the endpoints answer for every one of these blocks whose header is known: the balance of every address, every slot of
every account with storage, and a code for every address. -/
theorem C97_answered (he : api.evm.trie = n.trie) (empty : TrieWalker.Empty) (hcode : api.evm.keccakEmpty = empty.code)
    (hb : EvmState.NoBareHash api.evm) (first : At api.evm.trie empty) (l : List (At api.evm.trie empty))
    (batches : List (List Item)) (hco : Course api.evm.trie empty first l batches) (s : StateNode.State)
    (hhas : ∀ key, Gossiped first batches key → Has n s key) (net : EvmState.Network) (hst : api.state = some net)
    (hnet : ∀ key v, get n s key = some v → net key = some v) (rounds : Nat) (hro : 65 ≤ rounds)
    (a : At api.evm.trie empty) (ha : a ∈ l) (block : BlockId) (h : Hd) (hh : Answers api block h)
    (hroot : api.stateRoot h = a.root) (address : Bytes) (x : Option Trie.Account)
    (hx : EvmState.AccountIs api.evm a.state.trie (api.evm.trie.K address) x) :
    AllAnswered n s api net rounds empty a block address x := by
  obtain ⟨h1, h2, h3⟩ := C97_history n api.evm he empty hcode first l batches hco s hhas a ha
  rcases h1 with h1 | h1
  · right
    have h1' : EvmState.Serves api.evm net .accountTrieNode a.state.nodes (api.stateRoot h) := by
      rw [hroot]; exact serves_mono h1 hnet
    have hc : Trie.Commits api.evm.trie a.state.nodes (api.stateRoot h) a.state.trie := by
      rw [hroot]; exact a.state.genuine.commits
    refine ⟨?_, ?_, ?_⟩
    · rw [C60_balance_complete api rounds address block h net a.state.nodes a.state.trie x hh hst h1' hc
        a.state.noEmptyKeys hb hro hx]
      cases x <;> rfl
    · intro hv
      exact C60_code_complete api rounds address block h net a.state.nodes a.state.trie x hh hst hv h1'
        (fun ah y hy hne => by
          obtain ⟨c, h4, h5, h6⟩ := h3 ah y hy hne
          exact ⟨c, h4, h5, hnet _ _ h6⟩) hc a.state.noEmptyKeys hb hro hx
    · rintro y rfl hne tS hcS hwS slot z hz
      rcases h2 _ y hx hne with h2 | h2
      · exact .inl (C60_storage_complete api rounds address block h net a.state.nodes _ a.state.trie tS y slot z hh hst h1'
          (serves_mono h2 hnet) hc a.state.noEmptyKeys hcS hwS hb hro hx hz)
      · exact .inr h2
  · exact .inl h1

/-- From the bridges to the answers: the bridges have come to their end, and everything that belongs to the first state and
everything that one of the bridges sent is in the node; then the endpoints answer for every one of the blocks. -/
theorem C97_chain {P : Type} (he : api.evm.trie = n.trie) (empty : TrieWalker.Empty)
    (hcode : api.evm.keccakEmpty = empty.code)
    (hb : EvmState.NoBareHash api.evm) (first : At api.evm.trie empty) (l : List (At api.evm.trie empty))
    (batches : List (List Item)) (hco : Course api.evm.trie empty first l batches) (total : Nat) (ht : 1 ≤ total)
    (limit : Nat → Nat) (bridge : Nat → StateBridge.State P) (hf : AllFinished total limit batches bridge)
    (s : StateNode.State) (hfirst : ∀ key, first.state.Content key → Has n s key)
    (hsent : ∀ j < total, ∀ c ∈ (bridge j).contents, Has n s c.item.1) (net : EvmState.Network)
    (hst : api.state = some net) (hnet : ∀ key v, get n s key = some v → net key = some v) (rounds : Nat)
    (hro : 65 ≤ rounds) (a : At api.evm.trie empty) (ha : a ∈ l) (block : BlockId) (h : Hd) (hh : Answers api block h)
    (hroot : api.stateRoot h = a.root) (address : Bytes) (x : Option Trie.Account)
    (hx : EvmState.AccountIs api.evm a.state.trie (api.evm.trie.K address) x) :
    AllAnswered n s api net rounds empty a block address x := by
  have hin : ∀ key, a.state.Content key → Has n s key := by
    intro key hk
    by_cases hkf : first.state.Content key
    · exact hfirst key hkf
    · obtain ⟨j, hj, c, hc, rfl, _⟩ := C97_bridges api.evm.trie empty first l batches hco total ht limit bridge hf a ha key hk hkf
      exact hsent j hj c hc
  exact C97_answered n api he empty hcode hb a [a] [] .first s (fun key hk => by
      rcases hk with hk | ⟨_, hi, _⟩
      · exact hin key hk
      · cases hi) net hst hnet rounds hro a (List.mem_singleton.mpr rfl) block h hh hroot address x hx

end Endpoints

end Verif.Props

/-! ## A concrete course: the old and the new state of `StateDiffExample`, and two bridges -/

namespace Verif.StateFlowExample
open Verif Verif.StateContent Verif.StateNode Verif.Props Verif.Props.StateNodes Verif.Props.StateFlow Verif.StateNodeExample
open Verif.Props.TrieWalkerExample (env empty src K)

def old : At env empty := ⟨src, K [6], StateDiffExample.oldState⟩
def new : At env empty := ⟨src, K [1], TrieWalkerExample.state⟩
def changed : List TrieWalker.Item := (TrieWalker.diffItems env empty StateDiffExample.diff 77 5 (K [1])).getD []
def initial : List TrieWalker.Item := (TrieWalker.snapshotItems env empty src 76 5 (K [6])).getD []

theorem course : Course env empty old [new, old] [changed] :=
  .block old new [] [] StateDiffExample.diff 77 5 changed .first StateDiffExample.changes StateDiffExample.apart rfl

example := C97_goes_on env empty old old new [] [] .first StateDiffExample.diff 77 StateDiffExample.changes StateDiffExample.apart

/-- What the node is offered: the snapshot of the first state, and what both bridges send. -/
def fed : List (ContentKey.State × Bytes × List Store.Speed) := asFed (fun _ => []) (initial ++ changed)

theorem fed_room : Room node (fresh (cfg, StoreExample.start)) fed := by
  refine ⟨by decide +kernel, by decide +kernel, by decide +kernel, by decide +kernel⟩

theorem fed_valid : ∀ x ∈ fed, validateContent node.trie x.1 x.2.1 = some .canonicallyValid := by decide +kernel

theorem first_fed (key : ContentKey.State) (h : old.state.Content key) : key ∈ fed.map (·.1) := by
  have := C66_bridge_complete env empty src (K [6]) StateDiffExample.oldState initial (.snapshot _ 76 5 _ rfl) key h
  simp only [fed, asFed, List.map_map, List.map_append, List.mem_append]
  exact .inl this

theorem gossiped_fed (key : ContentKey.State) (h : Gossiped old [changed] key) : key ∈ fed.map (·.1) := by
  rcases h with h | ⟨items, hi, h⟩
  · exact first_fed key h
  · rw [List.mem_singleton] at hi
    subst hi
    simp only [fed, asFed, List.map_map, List.map_append, List.mem_append]
    exact .inr h

/-- The node after it was offered all this. -/
theorem fills : ∃ s, run node (fresh (cfg, StoreExample.start)) (feed 0 fed) = .ok s ∧
    (∀ key, Gossiped old [changed] key → StateFlow.Has node s key) ∧ ∀ key ∈ fed.map (·.1), StateFlow.Has node s key := by
  obtain ⟨s, h1, h2⟩ := C97_fed node (fresh (cfg, StoreExample.start)) fed fed_valid fed_room
  exact ⟨s, h1, fun key hk => h2 key (.inr (gossiped_fed key hk)), fun key hk => h2 key (.inr hk)⟩

/-- Two bridges that share the items of the block; each sends what is its part to peer 7. -/
def bridge (j : Nat) : StateBridge.State Nat :=
  StateBridge.run (StateBridge.plan ⟨j + 1, 2⟩ [⟨changed, true⟩]).2
    (StateBridge.init 5 (StateBridge.plan ⟨j + 1, 2⟩ [⟨changed, true⟩]).1) (List.replicate 12 (.main (some [7])))

theorem finished : AllFinished 2 (fun _ => 5) [changed] bridge := by
  intro j hj
  refine ⟨?_, _, rfl⟩
  revert j
  decide +kernel

example : (bridge 0).contents.map (fun c => StateBridges.sentTo c) = [[7], [7], [7]] ∧ (bridge 1).contents.length = 2 := by
  decide +kernel

theorem sent : ∀ j < 2, ∀ c ∈ (bridge j).contents, c.item.1 ∈ fed.map (·.1) := by decide +kernel

/-- The endpoints for the new state, and those for the old one. -/
noncomputable def api (root : Id) (s : StateNode.State) : EthRpc.Api UInt8 UInt8 UInt8 UInt8 :=
  { api' with stateRoot := fun _ => root, state := some (get node s) }

theorem api_answers (root : Id) (s : StateNode.State) : EthRpc.Answers (api root s) (.hash 1) 5 := answers

/-- For both states the endpoints answer, from the same store. -/
example : ∃ s, run node (fresh (cfg, StoreExample.start)) (feed 0 fed) = .ok s ∧
    ∀ address x, (EvmState.AccountIs evm TrieWalkerExample.state.trie (K address) x →
        AllAnswered node s (api (K [1]) s) (get node s) 65 empty new (.hash 1) address x) ∧
      (EvmState.AccountIs evm StateDiffExample.oldState.trie (K address) x →
        AllAnswered node s (api (K [6]) s) (get node s) 65 empty old (.hash 1) address x) := by
  obtain ⟨s, h1, _, h3⟩ := fills
  refine ⟨s, h1, fun address x => ⟨fun hx => ?_, fun hx => ?_⟩⟩
  · exact C97_chain node (api (K [1]) s) rfl empty rfl noBareHash old [new, old] [changed] course 2 (by decide) _ bridge finished s
      (fun key hk => h3 key (first_fed key hk)) (fun j hj c hc => h3 _ (sent j hj c hc)) (get node s) rfl (fun _ _ h => h) 65
      (by decide) new (.head _) (.hash 1) 5 (api_answers _ s) rfl address x hx
  · exact C97_chain node (api (K [6]) s) rfl empty rfl noBareHash old [new, old] [changed] course 2 (by decide) _ bridge finished s
      (fun key hk => h3 key (first_fed key hk)) (fun j hj c hc => h3 _ (sent j hj c hc)) (get node s) rfl (fun _ _ h => h) 65
      (by decide) old (.tail _ (.head _)) (.hash 1) 5 (api_answers _ s) rfl address x hx

/-- The account at `9..` is in the old state only, the contract at `2..` in the new one only. -/
example : StateDiffExample.oldState.trie.lookup (9 :: List.replicate 63 1) = some [8] ∧
    TrieWalkerExample.state.trie.lookup (9 :: List.replicate 63 1) = none ∧
    (TrieWalkerExample.state.trie.lookup (2 :: List.replicate 63 0)).isSome = true ∧
    StateDiffExample.oldState.trie.lookup (2 :: List.replicate 63 0) = none := by decide +kernel

/-- The whole history is read by C97_history. -/
example (s : StateNode.State) (hs : ∀ key, Gossiped old [changed] key → StateFlow.Has node s key) :=
  C97_history node evm rfl empty rfl old [new, old] [changed] course s hs old (.tail _ (.head _))
example := C97_offered env empty old [new, old] [changed] course

end Verif.StateFlowExample
