import Verif.Lemmas.StateDiff
import Verif.Lemmas.DiffCache
import Verif.Props.TrieWalker
import Verif.Props.EvmDb

/-! # C66: gossip of the changes of a block -/

namespace Verif.Props
open Verif.Trie Verif.TrieWalker Verif.StateContent

/-- Gossiping the changes of a block does not fail; every item is accepted as canonical, no key comes twice; every key is
one of the new state (or the empty node of an empty storage); and every key of the new state that the old state had not
is among them. -/
theorem C66_changes (env : Env) (empty : TrieWalker.Empty) (src₀ src₁ diff : Source) (root₀ root₁ blockHash : Id)
    (old : TrieWalker.State env empty src₀ root₀) (new : TrieWalker.State env empty src₁ root₁)
    (hch : Changes old new diff) (hap : Apart old new) :
    ∃ n items, (∀ m, n ≤ m → diffItems env empty diff blockHash m root₁ = some items) ∧
      (∀ key ∈ items.map (·.1), new.Content key ∨
        ∃ address, new.EmptyStorage address ∧ key = .storageTrieNode address [] empty.root) ∧
      (∀ key, new.Content key → ¬ old.Content key → key ∈ items.map (·.1)) ∧
      (items.map (·.1)).Nodup ∧ ∀ item ∈ items, validateContent env item.1 item.2.encode = some .canonicallyValid := by
  obtain ⟨n, items, h1, h2, h3, h4⟩ := diff_items hch hap blockHash
  exact ⟨n, items, h1, h3, h4, h2.nodup, h2.valid⟩

/-- A bridge that gossiped one state as a snapshot, and then the changes of each block: the last state, and what was
offered. -/
inductive Bridged (env : Env) (empty : TrieWalker.Empty) :
    {src : Source} → {root : Id} → TrieWalker.State env empty src root → List Item → Prop where
  | snapshot {src root} (s : TrieWalker.State env empty src root) (blockHash : Id) (fuel : Nat) (items : List Item) :
      snapshotItems env empty src blockHash fuel root = some items → Bridged env empty s items
  | block {src₀ root₀ src₁ root₁} (old : TrieWalker.State env empty src₀ root₀) (new : TrieWalker.State env empty src₁ root₁)
      (diff : Source) (blockHash : Id) (fuel : Nat) (before items : List Item) :
      Bridged env empty old before → Changes old new diff → Apart old new →
      diffItems env empty diff blockHash fuel root₁ = some items → Bridged env empty new (before ++ items)

/-- After any number of blocks, every key of the content of the last state has been offered. -/
theorem C66_bridge_complete (env : Env) (empty : TrieWalker.Empty) (src : Source) (root : Id)
    (s : TrieWalker.State env empty src root) (offers : List Item) (h : Bridged env empty s offers) :
    ∀ key, s.Content key → key ∈ offers.map (·.1) := by
  induction h with
  | snapshot s bh fuel items h =>
    intro key hk
    obtain ⟨n, items', h1, h2, _⟩ := C64_snapshot env empty _ _ bh s
    have e := h1 (max n fuel) (Nat.le_max_left _ _)
    rw [snapshotItems_more (Nat.le_max_right n fuel) h] at e
    cases e
    exact (h2 key).mpr hk
  | block old new diff bh fuel before items _ hch hap h ih =>
    intro key hk
    rw [List.map_append, List.mem_append]
    by_cases ho : old.Content key
    · exact .inl (ih key ho)
    · obtain ⟨n, items', h1, _, h2, _⟩ := C66_changes env empty _ _ diff _ _ bh old new hch hap
      have e := h1 (max n fuel) (Nat.le_max_left _ _)
      rw [diffItems_more (Nat.le_max_right n fuel) h] at e
      cases e
      exact .inr (h2 key hk ho)

/-- The changed storage nodes that the database gives for an account: every storage node it has now and had not when the
caches were last cleared, with the bytes it has now. -/
theorem C66_storage_cache (lib : EvmDb.Lib) (db₀ db : EvmDb.Db) (ops : List EvmDb.Op) (hc : db₀.cacheChanges = true)
    (hops : EvmDb.KeepsCache ops) (hrun : ops.foldlM (EvmDb.step lib) (EvmDb.clearCache db₀) = some db) (address hash : Id) (b : Bytes) :
    ((hash, b) ∈ EvmDb.storageTrieDiff db address → db.kv (address.bytes ++ hash.bytes) = some b) ∧
    (db.kv (address.bytes ++ hash.bytes) = some b → db₀.kv (address.bytes ++ hash.bytes) ≠ some b →
      (hash, b) ∈ EvmDb.storageTrieDiff db address) := by
  constructor
  · intro h
    simp only [EvmDb.storageTrieDiff, List.mem_filterMap] at h
    obtain ⟨x, _, hx⟩ := h
    cases hk : db.kv (address.bytes ++ x.bytes) with
    | none => rw [hk] at hx; cases hx
    | some v =>
      rw [hk] at hx
      simp only [Option.map_some, Option.some.injEq, Prod.mk.injEq] at hx
      rw [← hx.1, ← hx.2]; exact hk
  · intro h1 h2
    have hinv := EvmDb.run_cached ops (EvmDb.clearCache db₀) (EvmDb.clearCache db₀) db ⟨hc, fun _ _ _ h => .inl h⟩ hops hrun
    rcases hinv.nodes address hash b h1 with h | h
    · exact absurd h h2
    · simp only [EvmDb.storageTrieDiff, List.mem_filterMap]
      exact ⟨hash, h, by rw [h1]; rfl⟩

/-- The new codes: exactly those committed since the caches were last cleared. -/
theorem C66_new_codes (lib : EvmDb.Lib) (db₀ db : EvmDb.Db) (ops : List EvmDb.Op) (hc : db₀.cacheChanges = true)
    (hops : EvmDb.KeepsCache ops) (hrun : ops.foldlM (EvmDb.step lib) (EvmDb.clearCache db₀) = some db) (hash : Id) :
    (db.newContracts hash ≠ none ↔ ∃ c, (hash, c) ∈ EvmDb.codesOf ops) ∧
    ∀ c, db.newContracts hash = some c → (hash, c) ∈ EvmDb.codesOf ops := by
  have hinv := EvmDb.run_coded ops (EvmDb.clearCache db₀) (EvmDb.clearCache db₀) db [] ⟨hc, fun _ h => (nomatch h), fun _ _ h => by cases h⟩ hops hrun
  have hs : ∀ c, db.newContracts hash = some c → (hash, c) ∈ EvmDb.codesOf ops := by
    intro c h
    rcases hinv.sound hash c h with h | h
    · cases h
    · simpa using h
  refine ⟨⟨fun h => ?_, fun ⟨c, h⟩ => hinv.has (hash, c) (by simpa using h)⟩, hs⟩
  cases hn : db.newContracts hash with
  | none => exact absurd hn h
  | some c => exact ⟨c, hs c hn⟩

/-- After clearing, nothing is a change. -/
theorem C66_cleared (db : EvmDb.Db) (address hash : Id) :
    EvmDb.storageTrieDiff (EvmDb.clearCache db) address = [] ∧ (EvmDb.clearCache db).newContracts hash = none := ⟨rfl, rfl⟩

/-- What the bridge reads from such a map of nodes: exactly its entries. -/
theorem C66_map (entries : List (Id × Bytes)) (hash : Id) :
    (∀ b, mapDb entries hash = some (some b) → (hash, b) ∈ entries) ∧
    (mapDb entries hash = some none ↔ ∀ b, (hash, b) ∉ entries) ∧ mapDb entries hash ≠ none := by
  unfold mapDb
  refine ⟨?_, ?_, by simp⟩
  · intro b h
    simp only [Option.some.injEq, Option.map_eq_some_iff] at h
    obtain ⟨e, h1, rfl⟩ := h
    have := List.mem_of_find?_eq_some h1
    have h2 := List.find?_some h1
    simp only [decide_eq_true_eq] at h2
    rw [← h2]; exact this
  · simp only [Option.some.injEq, Option.map_eq_none_iff, List.find?_eq_none, decide_eq_true_eq]
    constructor
    · intro h b hb; exact h _ hb rfl
    · rintro h ⟨x, b⟩ hb rfl; exact h b hb

namespace StateDiffExample
open TrieWalkerExample

/-! The state before has two accounts, at `7..` and `9..`. The block deletes the second and creates the contract at
`2..`. -/

def oldTrie : PTrie := .branch (fun i => if i.val = 7 then .leaf (List.replicate 63 1) [8]
  else if i.val = 9 then .leaf (List.replicate 63 1) [8] else .empty) none

theorem oldGenuine : Genuine env [[6], [3]] (K [6]) oldTrie where
  commits := by
    refine .hash [6] n6 _ (by simp) rfl (.branch _ _ _ fun i => ?_)
    by_cases h : i.val = 7
    · simp only [h, if_true]; exact .hash [3] n3 _ (by simp) rfl (.leaf _ _)
    · by_cases h' : i.val = 9
      · simp only [h', if_true]; exact .hash [3] n3 _ (by simp) rfl (.leaf _ _)
      · simp only [h, h', if_false]; exact .empty
  keys := by
    refine .branch _ 63 fun i => ?_
    split
    · exact keys63 _ _ (by decide)
    · split
      · exact keys63 _ _ (by decide)
      · exact .empty _
  stored := fun b hb n h => stored b n (by rintro rfl; revert hb; decide) h

theorem oldLookup {path : List UInt8} {v : Bytes} (h : oldTrie.lookup path = some v) : v = [8] := by
  unfold oldTrie at h
  cases path with
  | nil => cases h
  | cons a path =>
    simp only [PTrie.lookup] at h
    split at h
    · split at h
      · simp only [PTrie.lookup] at h
        split at h <;> cases h
        rfl
      · split at h
        · simp only [PTrie.lookup] at h
          split at h <;> cases h
          rfl
        · cases h
    · cases h

def oldState : TrieWalker.State env empty src (K [6]) where
  nodes := [[6], [3]]
  trie := oldTrie
  genuine := oldGenuine
  noEmptyKeys := by
    refine .branch _ _ fun i => ?_
    split
    · exact .leaf _ _ (by simp)
    · split
      · exact .leaf _ _ (by simp)
      · exact .empty
  sparse := by
    intro b hb n h
    simp only [List.mem_cons, List.not_mem_nil, or_false] at hb
    rcases hb with rfl | rfl
    · have : n6 = n := Option.some.inj h
      subst this
      refine .branch _ _ fun i => ?_
      split
      · exact .inr ⟨_, rfl⟩
      · split
        · exact .inr ⟨_, rfl⟩
        · exact .inl rfl
    · have : n3 = n := Option.some.inj h
      subst this; exact .leaf _ _
  has := by unfold Has; decide +kernel
  small := by decide +kernel
  accounts := by
    intro path v h
    rw [oldLookup h]; decide +kernel
  code := by
    intro path v a h ha hne
    rw [oldLookup h] at ha
    have : plain = a := Option.some.inj ha
    subst this
    exact absurd rfl hne
  storageNodes := fun _ => []
  storage := by
    intro address v a h ha hne
    rw [oldLookup h] at ha
    have : plain = a := Option.some.inj ha
    subst this
    exact absurd rfl hne

/-- The changes: not the node of the account at `7..`. -/
def diff : Source :=
  { trie := mapDb [(K [1], [1]), (K [2], [2])]
    code := fun h => if h = K [1, 1] then some [1, 1] else none
    storage := fun a => if a = BitVec.ofNat 256 (2 * 16 ^ 63) then mapDb [(K [4], [4]), (K [5], [5])] else mapDb [] }

theorem path3 {path : List UInt8} (h : StoredAt env state.nodes (.hash (K [1])) path [3]) : path = [7] := by
  have hn : state.nodes = [[1], [2], [3]] := rfl
  rw [hn] at h
  generalize hk : K [1] = k at h
  generalize h3 : ([3] : Bytes) = c at h
  cases h with
  | here b hb => subst h3; exact absurd hk (by decide +kernel)
  | hash b' n path b hb' hd h' =>
    subst h3
    simp only [List.mem_cons, List.not_mem_nil, or_false] at hb'
    rcases hb' with rfl | rfl | rfl
    · have : n1 = n := Option.some.inj hd
      subst this
      cases h' with
      | branch _ _ i path _ h' =>
        by_cases h2 : i.val = 2
        · simp only [h2, if_true] at h'
          generalize hk' : K [2] = k at h'
          generalize h3 : ([3] : Bytes) = c at h'
          cases h' with
          | here b hb => subst h3; exact absurd hk' (by decide +kernel)
          | hash b' n path b hb' hd h' =>
            subst h3
            simp only [List.mem_cons, List.not_mem_nil, or_false] at hb'
            rcases hb' with rfl | rfl | rfl
            · exact absurd hk' (by decide +kernel)
            · have : n2 = n := Option.some.inj hd
              subst this; cases h'
            · exact absurd hk' (by decide +kernel)
        · by_cases h7 : i.val = 7
          · simp only [h7, if_true] at h'
            have : (UInt8.ofNat i.val) = 7 := by rw [h7]; rfl
            simp only [h7]
            replace h' : StoredAt env [[1], [2], [3]] (.hash (K [3])) path [3] := h'
            generalize hk' : K [3] = k at h'
            cases h' with
            | here b hb => rfl
            | hash b' n path b hb' hd h' =>
              simp only [List.mem_cons, List.not_mem_nil, or_false] at hb'
              rcases hb' with rfl | rfl | rfl
              · exact absurd hk' (by decide +kernel)
              · exact absurd hk' (by decide +kernel)
              · have : n3 = n := Option.some.inj hd
                subst this; cases h'
          · simp only [h2, h7, if_false] at h'
            cases h'
    · exact absurd hk (by decide +kernel)
    · exact absurd hk (by decide +kernel)

/-- The contract is the only account with storage. -/
theorem address_full {address : Id} (h : trie.lookup (hexDigits address) = some [9]) : address = BitVec.ofNat 256 (2 * 16 ^ 63) := by
  apply hexDigits_inj
  have : hexDigits (BitVec.ofNat 256 (2 * 16 ^ 63)) = 2 :: List.replicate 63 0 := by decide +kernel
  rw [this]
  generalize hexDigits address = p at h
  unfold trie at h
  cases p with
  | nil => cases h
  | cons a p =>
    simp only [PTrie.lookup] at h
    split at h
    · next hlt =>
      split at h
      · next h2 =>
        simp only [PTrie.lookup] at h
        split at h
        · next hp =>
          rw [hp]
          have : a = 2 := UInt8.toNat_inj.mp h2
          rw [this]
        · cases h
      · split at h
        · simp only [PTrie.lookup] at h
          split at h <;> cases h
        · cases h
    · cases h

theorem changes : Changes oldState state diff where
  trie := by
    intro path b hst hnew
    have hb := storedAt_mem hst
    have : state.nodes = [[1], [2], [3]] := rfl
    rw [this] at hb
    simp only [List.mem_cons, List.not_mem_nil, or_false] at hb
    rcases hb with rfl | rfl | rfl
    · decide +kernel
    · decide +kernel
    · refine absurd (.account path [3] ?_) hnew
      rw [path3 hst]
      exact .hash [6] n6 _ _ (by simp [oldState]) rfl (.branch _ _ ⟨7, by omega⟩ [] _ (.here [3] (by simp [oldState])))
  trieAnswers := by
    intro b hb
    have : state.nodes = [[1], [2], [3]] := rfl
    rw [this] at hb
    simp only [List.mem_cons, List.not_mem_nil, or_false] at hb
    rcases hb with rfl | rfl | rfl
    · exact .inl (by decide +kernel)
    · exact .inl (by decide +kernel)
    · exact .inr (by decide +kernel)
  code := by
    intro address v a h ha hne _
    rcases lookup_cases h with rfl | rfl
    · have : full = a := Option.some.inj ha
      subst this
      decide +kernel
    · have : plain = a := Option.some.inj ha
      subst this
      exact absurd rfl hne
  codeGenuine := by
    intro h c hc
    simp only [diff] at hc
    split at hc
    · next e => cases hc; rw [e]; exact ⟨rfl, by decide⟩
    · cases hc
  storage := by
    intro address v a path b h ha hne hst _
    rcases lookup_cases h with rfl | rfl
    · rw [address_full h]
      have hb : b ∈ [[4], [5]] := storedAt_mem hst
      simp only [List.mem_cons, List.not_mem_nil, or_false] at hb
      rcases hb with rfl | rfl <;> decide +kernel
    · have : plain = a := Option.some.inj ha
      subst this
      exact absurd rfl hne
  storageAnswers := by
    intro address v a h ha hne
    rcases lookup_cases h with rfl | rfl
    · rw [address_full h]
      intro b hb
      have hb : b ∈ [[4], [5]] := hb
      simp only [List.mem_cons, List.not_mem_nil, or_false] at hb
      rcases hb with rfl | rfl
      · exact .inl (by decide +kernel)
      · exact .inl (by decide +kernel)
    · have : plain = a := Option.some.inj ha
      subst this
      exact absurd rfl hne
  emptyStorage := by
    intro address _
    left
    unfold diff
    by_cases h : address = BitVec.ofNat 256 (2 * 16 ^ 63)
    · rw [h]; decide +kernel
    · simp only [h, if_false]; rfl

theorem apart : Apart oldState state := by
  constructor
  · rintro ⟨a, ha, b, hb, hne, e⟩
    have ha : a ∈ [[6], [3]] := ha
    have hb : b ∈ [[1], [2], [3]] := hb
    revert a b
    decide +kernel
  · rintro address ⟨a, ha, _⟩
    cases ha

-- the keys that are offered: the unchanged account is not among them
example : (diffItems env empty diff 77 5 (K [1])).map (·.map (·.1)) = some
    [.accountTrieNode [] (K [1]), .accountTrieNode [2] (K [2]),
      .bytecode (BitVec.ofNat 256 (2 * 16 ^ 63)) (K [1, 1]),
      .storageTrieNode (BitVec.ofNat 256 (2 * 16 ^ 63)) [] (K [4]),
      .storageTrieNode (BitVec.ofNat 256 (2 * 16 ^ 63)) [0] (K [5])] := by decide +kernel

-- a snapshot and one block
example : ∃ offers, Bridged env empty state offers ∧ offers.length = 8 := by
  refine ⟨_, .block oldState state diff 77 5 _ _ (.snapshot oldState 76 5 _ rfl) changes apart rfl, ?_⟩
  decide +kernel

/-- A library whose tries have one node. -/
def lib : EvmDb.Lib where
  K := EvmDbExample.K
  encodeAccount _ := [9]
  decodeAccount _ := some ⟨0, 0, 55, 0⟩
  encodeWord w := Id.bytes w
  decodeWord _ := none
  emptyRoot := 55
  get _ _ _ := none
  update _ _ _ := some ⟨77, [(77, [5, 6])], []⟩
  clear _ _ := none
  rootOf _ := 55

-- a commit after a clear: the new code and the new storage node are in the caches
example : (([EvmDb.Op.bundle ⟨[], [(lib.K [1, 2], [1, 2])], [⟨3, false, [(4, 5)]⟩]⟩].foldlM (EvmDb.step lib)
    (EvmDb.clearCache (EvmDb.initial lib true))).map fun db =>
      (EvmDb.storageTrieDiff db (lib.K (EvmDb.addressBytes 3)), db.newContracts (lib.K [1, 2]), db.newContracts 0)) =
    some ([(77, [5, 6])], some [1, 2], none) := by decide +kernel
example : (EvmDb.initial lib true).cacheChanges = true := rfl

end StateDiffExample

end Verif.Props
