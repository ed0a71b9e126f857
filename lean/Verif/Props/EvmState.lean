import Verif.Lemmas.EvmState
import Verif.Lemmas.ExceptEq

/-! # C59: reads of the EVM state of a block

`run env rounds root past` is the reader of a block with state root `root` after any requests, each with
what the network answered at that time. `Commits env.trie db root state` says that `state` is the trie with
this root and that its encoded nodes are `db` (Props/TrieSpec). Soundness has the alternative that a node that
was fetched and a different genuine node have the same hash. -/

namespace Verif.Props
open Verif.Trie Verif.StateContent Verif.EvmState

/-- An account read gives the account that the state has, or says that there is none. -/
theorem C59_account (env : EvmState.Env) (rounds : Nat) (root : Id) (past : List (Network × Request)) (net : Network)
    (db : List Bytes) (state : PTrie) (address : Bytes) (x : Option Account) (s' : Reader)
    (hpast : ∀ e ∈ past, Validated env e.1) (hnet : Validated env net) (hc : Commits env.trie db root state)
    (h : basic env net rounds root address (run env rounds root past) = (.ok x, s')) :
    AccountIs env state (env.trie.K address) x ∨ ByteCollision env.trie.K s'.nodes db := by
  obtain ⟨s1, ht, hs⟩ := accountState_ok h
  have hn : s'.nodes = s1.nodes := by
    cases x with
    | none => rw [hs]
    | some a => rw [hs]; simp only [Reader.nodes]; rw [(addOwner_extends env s1 a _).2]
  rw [hn]
  rcases traverse_sound trieKey_account hnet (run_good past hpast) hc ht with h1 | h1
  · left
    cases hl : state.lookup (hexDigits (env.trie.K address)) with
    | none => rw [hl] at h1; subst h1; exact hl
    | some v =>
      rw [hl] at h1
      obtain ⟨a, ha, rfl⟩ := h1
      exact ⟨v, hl, ha⟩
  · exact .inr h1

/-- A storage read gives what the storage trie of the account holds in the slot, and zero if there is no
account. -/
theorem C59_storage (env : EvmState.Env) (rounds : Nat) (root : Id) (past : List (Network × Request)) (net : Network)
    (db : List Bytes) (state : PTrie) (address : Bytes) (slot x : BitVec 256) (s' : Reader)
    (hpast : ∀ e ∈ past, Validated env e.1) (hnet : Validated env net) (hc : Commits env.trie db root state)
    (h : storage env net rounds root address slot (run env rounds root past) = (.ok x, s')) :
    (AccountIs env state (env.trie.K address) none ∧ x = 0) ∨
    (∃ a, AccountIs env state (env.trie.K address) (some a) ∧
      ∀ dbS tS, Commits env.trie dbS a.storageRoot tS →
        SlotIs env tS slot x ∨ ByteCollision env.trie.K s'.nodes dbS) ∨
    ByteCollision env.trie.K s'.nodes db := by
  unfold storage at h
  split at h
  · cases h
  · next s1 ha =>
    cases h
    rcases C59_account env rounds root past net db state address none s' hpast hnet hc ha with h1 | h1
    · exact .inl ⟨h1, rfl⟩
    · exact .inr (.inr h1)
  · next a s1 ha =>
    have hg := accountState_good hnet (run_good (rounds := rounds) (root := root) past hpast) rounds root
      (env.trie.K address)
    rw [ha] at hg
    have hext := (storageAt_state env net rounds a.storageRoot (env.trie.K address) slot s1).1
    rw [h] at hext
    rcases C59_account env rounds root past net db state address (some a) s1 hpast hnet hc ha with h1 | h1
    · refine .inr (.inl ⟨a, h1, fun dbS tS hcS => ?_⟩)
      unfold storageAtSlot at h
      split at h
      · cases h
      · next w s2 ht =>
        simp only at h
        split at h
        · cases h
        · next hlen =>
          cases h
          rcases traverse_sound (trieKey_storage _) hnet hg hcS ht with h2 | h2
          · left
            unfold SlotIs
            cases hl : tS.lookup (hexDigits (env.trie.K (Id.bytes slot))) with
            | none => rw [hl] at h2; simp only at h2 ⊢; rw [h2]; rfl
            | some v =>
              rw [hl] at h2
              obtain ⟨w', hw, rfl⟩ := h2
              simp only [Option.getD_some] at hlen ⊢
              refine ⟨w', hw, by omega, ?_⟩
              rw [BitVec.toNat_ofNat, Nat.mod_eq_of_lt]
              have h3 := fromBe_lt w'
              have h4 : 256 ^ w'.length ≤ 256 ^ 32 := Nat.pow_le_pow_right (by omega) (by omega)
              have h5 : (256 : Nat) ^ 32 = 2 ^ 256 := by decide
              omega
          · exact .inr h2
    · exact .inr (.inr (h1.mono hext.2.2 (fun _ h => h)))

/-- Code that is read has the hash that was asked for. -/
theorem C59_code (env : EvmState.Env) (rounds : Nat) (root : Id) (past : List (Network × Request)) (net : Network)
    (codeHash : Id) (code : Bytes) (s' : Reader) (hempty : env.trie.K [] = env.keccakEmpty)
    (hpast : ∀ e ∈ past, Validated env e.1) (hnet : Validated env net)
    (h : codeByHash env net codeHash (run env rounds root past) = (.ok code, s')) :
    env.trie.K code = codeHash := by
  unfold codeByHash at h
  split at h
  · next e => cases h; rw [hempty, e]
  · split at h
    · cases h
    · next ah _ =>
      unfold contractBytecode at h
      split at h
      · cases h
      · next c s1 hf =>
        cases h
        have hg := fetchContent_good hnet (run_good (rounds := rounds) (root := root) past hpast) (.bytecode ah codeHash)
        rw [hf] at hg
        have := hg _ (find_mem (fetchContent_find hf))
        simpa [subject, namedHash] using this
      · cases h

/-- If the network has the nodes of the state, every account is read, and every missing account is reported as
missing. The network may have had any of the nodes all along; the requests before can be any. -/
theorem C59_account_complete (env : EvmState.Env) (rounds : Nat) (root : Id) (past : List (Network × Request))
    (net : Network) (db : List Bytes) (state : PTrie) (address : Bytes) (x : Option Account)
    (hpast : ∀ e ∈ past, Serves env e.1 .accountTrieNode db root) (hnet : Serves env net .accountTrieNode db root)
    (hc : Commits env.trie db root state) (hw : state.NoEmptyKeys) (hb : NoBareHash env) (hr : 65 ≤ rounds)
    (hx : AccountIs env state (env.trie.K address) x) :
    (basic env net rounds root address (run env rounds root past)).1 = .ok x := by
  have hp := run_plain (rounds := rounds) (root := root) trieKey_account past hpast
  obtain ⟨s', h⟩ := traverse_complete (decode := env.trie.decodeAccount) (path := env.trie.K address) (x := x)
    trieKey_account hnet hb hp hc hw hr (by
      cases x with
      | none => simp only [AccountIs] at hx; rw [hx]
      | some a => obtain ⟨v, h1, h2⟩ := hx; rw [h1]; exact ⟨a, h2, rfl⟩)
  rw [basic, accountState_fst, h]

/-- If the network has the nodes of the state and of the storage of the account, every slot is read.
Missing: accounts with an empty storage, whose root node nobody offers, see `C59_empty_storage_violated`. -/
theorem C59_storage_complete_partial (env : EvmState.Env) (rounds : Nat) (root : Id) (past : List (Network × Request))
    (net : Network) (db dbS : List Bytes) (state tS : PTrie) (address : Bytes) (a : Account) (slot x : BitVec 256)
    (hpast : ∀ e ∈ past, Serves env e.1 .accountTrieNode db root ∧
      Serves env e.1 (.storageTrieNode (env.trie.K address)) dbS a.storageRoot)
    (hnet : Serves env net .accountTrieNode db root ∧
      Serves env net (.storageTrieNode (env.trie.K address)) dbS a.storageRoot)
    (hc : Commits env.trie db root state) (hw : state.NoEmptyKeys)
    (hcS : Commits env.trie dbS a.storageRoot tS) (hwS : tS.NoEmptyKeys) (hb : NoBareHash env) (hr : 65 ≤ rounds)
    (ha : AccountIs env state (env.trie.K address) (some a)) (hx : SlotIs env tS slot x) :
    (storage env net rounds root address slot (run env rounds root past)).1 = .ok x := by
  have hbasic := C59_account_complete env rounds root past net db state address (some a)
    (fun e he => (hpast e he).1) hnet.1 hc hw hb hr ha
  have hp := accountState_plain (trieKey_storage _) hnet.2
    (run_plain (rounds := rounds) (root := root) (trieKey_storage (env.trie.K address)) past
      (fun e he => (hpast e he).2)) rounds root (env.trie.K address)
  unfold basic at hbasic
  unfold storage
  split
  · next h => rw [h] at hbasic; cases hbasic
  · next h => rw [h] at hbasic; cases hbasic
  · next a' s1 h =>
    rw [h] at hbasic hp
    cases hbasic
    unfold SlotIs at hx
    cases hl : tS.lookup (hexDigits (env.trie.K (Id.bytes slot))) with
    | none =>
      rw [hl] at hx
      obtain ⟨s', h'⟩ := traverse_complete (decode := env.decodeBytes) (path := env.trie.K (Id.bytes slot)) (x := none)
        (trieKey_storage _) hnet.2 hb hp hcS hwS hr (by rw [hl])
      simp only at hx
      simp only [storageAtSlot, h', hx]
      rfl
    | some v =>
      rw [hl] at hx
      obtain ⟨w, h1, h2, h3⟩ := hx
      obtain ⟨s', h'⟩ := traverse_complete (decode := env.decodeBytes) (path := env.trie.K (Id.bytes slot)) (x := some w)
        (trieKey_storage _) hnet.2 hb hp hcS hwS hr (by rw [hl]; exact ⟨w, h1, rfl⟩)
      simp only [storageAtSlot, h', Option.getD_some]
      rw [if_neg (by omega), ← h3, BitVec.ofNat_toNat, BitVec.setWidth_eq]

/-- After an account with code was read, its code is known from then on: no later request for its hash fails
because the account was not seen. -/
theorem C59_code_known (env : EvmState.Env) (rounds : Nat) (root : Id) (past later : List (Network × Request))
    (net net' : Network) (address : Bytes) (a : Account) (s' : Reader)
    (h : basic env net rounds root address (run env rounds root past) = (.ok (some a), s')) :
    (codeByHash env net' a.codeHash (run env rounds root (later ++ (net, .basic address) :: past))).1 ≠
      .error .unknownCode := by
  unfold codeByHash
  split
  · simp
  · next hne =>
    have hx := run_extends env rounds root ((net, .basic address) :: past) later
    simp only [run, Request.after, h] at hx
    obtain ⟨s1, _, hs⟩ := accountState_ok h
    have hf : ∃ ah, find s'.owners a.codeHash = some ah := by
      rw [hs]
      simp only [Reader.addOwner, hne, if_false]
      split
      · next ah hf => exact ⟨ah, hf⟩
      · exact ⟨env.trie.K address, by rw [find_cons, if_pos rfl]⟩
    obtain ⟨ah, hf⟩ := hf
    rw [hx.2.1 _ _ hf]
    simp only [contractBytecode]
    split
    · next e s2 hc =>
      unfold fetchContent at hc
      repeat' split at hc
      all_goals cases hc
      all_goals simp
    · simp
    · simp

/-- If the network has the code of every account, the code of every account that was read can be read, with any
requests before and in between. -/
theorem C59_code_complete (env : EvmState.Env) (rounds : Nat) (root : Id) (past later : List (Network × Request))
    (net net' : Network) (db : List Bytes) (state : PTrie) (address : Bytes) (a : Account) (s' : Reader)
    (hc : Commits env.trie db root state)
    (hall : ∀ e ∈ later ++ (net, Request.basic address) :: past, Validated env e.1 ∧ ServesCode env e.1 state)
    (hnet' : ServesCode env net' state)
    (h : basic env net rounds root address (run env rounds root past) = (.ok (some a), s')) :
    (∃ c, (codeByHash env net' a.codeHash (run env rounds root (later ++ (net, .basic address) :: past))).1 = .ok c) ∨
      ByteCollision env.trie.K (run env rounds root (later ++ (net, .basic address) :: past)).nodes db := by
  have hkn := C59_code_known env rounds root past later net net' address a s' h
  rcases run_owned (rounds := rounds) hc _ (fun e he => (hall e he).1) with ho | hcol
  · left
    have hp := run_plainCode (rounds := rounds) (root := root) _ (fun e he => (hall e he).2)
    generalize run env rounds root (later ++ (net, .basic address) :: past) = s at *
    unfold codeByHash at hkn ⊢
    split
    · exact ⟨[], rfl⟩
    · next hne =>
      rw [if_neg hne] at hkn
      cases hf : find s.owners a.codeHash with
      | none => rw [hf] at hkn; exact absurd rfl hkn
      | some ah =>
        obtain ⟨_, a', ha', he⟩ := ho _ _ hf
        simp only
        rw [← he] at hne ⊢
        unfold contractBytecode
        cases hfc : find s.cache (.bytecode ah a'.codeHash) with
        | some v =>
          obtain ⟨c, rfl⟩ := hp ah a' ha' hne v hfc
          exact ⟨c, by simp only [fetchContent, hfc]⟩
        | none =>
          obtain ⟨c, h1, _, h2⟩ := hnet' ah a' ha' hne
          refine ⟨c, ?_⟩
          simp only [fetchContent, hfc, h2, C51_state_roundtrip _ _ (.bytecode ah a'.codeHash c h1)]
  · exact .inr hcol

/-- An account or a slot that was read once is read again with the same result, whatever the network answers
then, and whatever was read in between. -/
theorem C59_repeat (env : EvmState.Env) (rounds : Nat) (root : Id) (past later : List (Network × Request))
    (net net' : Network) (address : Bytes) (slot : BitVec 256) :
    (∀ x, (basic env net rounds root address (run env rounds root past)).1 = .ok x →
      (basic env net' rounds root address (run env rounds root (later ++ (net, .basic address) :: past))).1 = .ok x) ∧
    (∀ x, (storage env net rounds root address slot (run env rounds root past)).1 = .ok x →
      (storage env net' rounds root address slot
        (run env rounds root (later ++ (net, .storage address slot) :: past))).1 = .ok x) := by
  constructor
  · intro x h
    have hx := run_extends env rounds root ((net, .basic address) :: past) later
    simp only [run, Request.after] at hx
    generalize hb : basic env net rounds root address (run env rounds root past) = r at h hx
    obtain ⟨r1, s'⟩ := r
    simp only at h hx
    subst h
    obtain ⟨s1, ht, hs⟩ := accountState_ok hb
    have hx1 : Extends s1 s' := by
      rw [hs]
      cases x with
      | none => exact .refl _
      | some a => exact (addOwner_extends env s1 a _).1
    rw [basic, accountState_fst, traverse_again ht net' (hx1.trans hx)]
  · intro x h
    have hx := run_extends env rounds root ((net, .storage address slot) :: past) later
    simp only [run, Request.after] at hx
    generalize run env rounds root (later ++ (net, .storage address slot) :: past) = s2 at *
    generalize run env rounds root past = s0 at *
    unfold storage at h hx
    split at h
    · cases h
    · next s' ha =>
      rw [ha] at hx
      obtain ⟨s1, ht, hs⟩ := accountState_ok ha
      simp only at hs
      subst hs
      have := traverse_again ht net' hx
      cases h
      simp only [storage, accountState, this]
    · next a s' ha =>
      rw [ha] at hx
      simp only at h hx
      obtain ⟨s1, ht, hs⟩ := accountState_ok ha
      simp only at hs
      have h1 := (addOwner_extends env s1 a (env.trie.K address)).1
      rw [← hs] at h1
      have h2 := (storageAt_state env net rounds a.storageRoot (env.trie.K address) slot s').1
      have h3 := traverse_again ht net' ((h1.trans h2).trans hx)
      simp only [storage, accountState, h3]
      generalize hst : storageAtSlot env net rounds a.storageRoot (env.trie.K address) slot s' = r at h hx h2
      obtain ⟨r1, s3⟩ := r
      simp only at h hx h2
      subst h
      unfold storageAtSlot at hst ⊢
      split at hst
      · cases hst
      · next w s4 hw =>
        have hs4 : s4 = s3 := by
          simp only at hst
          split at hst <;> cases hst
          rfl
        subst hs4
        rw [traverse_again hw net' (hx.trans (addOwner_extends env s2 a (env.trie.K address)).1)]
        simp only at hst ⊢
        split at hst
        · cases hst
        · next hlen => cases hst; rw [if_neg hlen]

/-- No request aborts, whatever the network answers, and none goes on for more than 65 rounds. -/
theorem C59_no_abort (env : EvmState.Env) (rounds : Nat) (root : Id) (net : Network) (s : Reader) (address : Bytes)
    (slot : BitVec 256) (codeHash : Id) (hb : NoBareHash env) (hr : 65 ≤ rounds) (e : EvmState.Err)
    (he : e = .panic ∨ e = .running) :
    (basic env net rounds root address s).1 ≠ .error e ∧
    (storage env net rounds root address slot s).1 ≠ .error e ∧ (codeByHash env net codeHash s).1 ≠ .error e := by
  have htr : ∀ {α : Type} (key : List UInt8 → Id → ContentKey.State) (d : Bytes → Option α) (r p : Id) (s : Reader),
      (traverse env net rounds key d r p s).1 ≠ .error e := by
    intro α key d r p s
    have := traverse_safe env net rounds key d r p s
    rcases he with rfl | rfl
    · exact this.1
    · exact this.2 hb hr
  have hb1 : ∀ s, (basic env net rounds root address s).1 ≠ .error e := by
    intro s
    rw [basic, accountState_fst]
    exact htr _ _ _ _ _
  refine ⟨hb1 s, ?_, ?_⟩
  · have h1 := hb1 s
    unfold basic at h1
    unfold storage
    split
    · next e' s1 h => rw [h] at h1; simp only [ne_eq, Except.error.injEq] at h1 ⊢; exact h1
    · simp
    · next a s1 h =>
      unfold storageAtSlot
      have h2 := htr (.storageTrieNode (env.trie.K address)) env.decodeBytes a.storageRoot (env.trie.K (Id.bytes slot)) s1
      split
      · next e' s2 h' => rw [h'] at h2; simp only [ne_eq, Except.error.injEq] at h2 ⊢; exact h2
      · simp only
        split
        · rcases he with rfl | rfl <;> simp
        · simp
  · unfold codeByHash
    split
    · simp
    · split
      · rcases he with rfl | rfl <;> simp
      · simp only [contractBytecode]
        split
        · next hc =>
          unfold fetchContent at hc
          repeat' split at hc
          all_goals cases hc
          all_goals rcases he with rfl | rfl <;> simp
        · simp
        · rcases he with rfl | rfl <;> simp

/-- A valid node with its proof is refused: a reader that gets the root of the state in this form reads
nothing. -/
theorem C59_proof_form_refused (env : EvmState.Env) (rounds : Nat) (root blockHash : Id) (net : Network) (s : Reader)
    (address : Bytes) (slot : BitVec 256) (proof : List Bytes) (hp : ProofFits proof)
    (hs : find s.cache (.accountTrieNode [] root) = none)
    (hnet : net (.accountTrieNode [] root) = some (Value.accountTrieNode proof blockHash).encode) :
    (basic env net (rounds + 1) root address s).1 = .error .valueType ∧
    (storage env net (rounds + 1) root address slot s).1 = .error .valueType := by
  have h0 : (stripSuffix (hexDigits (env.trie.K address)) (hexDigits (env.trie.K address))).bind
      Nibbles.tryFromUnpacked = some [] := by
    have := stripSuffix_append [] (hexDigits (env.trie.K address))
    rw [List.nil_append] at this
    rw [this]; rfl
  have hd := C51_state_roundtrip _ _ (.account [] root proof blockHash hp)
  have ht : accountState env net (rounds + 1) root (env.trie.K address) s =
      (.error .valueType, ⟨(.accountTrieNode [] root, .accountTrieNode proof blockHash) :: s.cache, s.owners⟩) := by
    simp only [accountState, traverse, unpack_hash, walk, h0, fetchNode, fetchContent, hs, hnet, hd]
  constructor
  · rw [basic, ht]
  · rw [storage, ht]

theorem stored_mem {env : Trie.Env} {db : List Bytes} {n : Node} {path : List UInt8} {b : Bytes}
    (h : StoredAt env db n path b) : b ∈ db := by
  induction h with
  | here b hb => exact hb
  | hash _ _ _ _ _ _ _ ih => exact ih
  | extension _ _ _ _ _ _ ih => exact ih
  | branch _ _ _ _ _ _ ih => exact ih

namespace EvmStateExample

/-- A hash that pads with zeros to 32 bytes. -/
def K (b : Bytes) : Id := BitVec.ofNat 256 (fromBe ((b ++ List.replicate 32 0).take 32))

def slot : BitVec 256 := 5
def address : Bytes := [0x25, 0x70] ++ List.replicate 18 0
def nobody : Bytes := [0x35, 0x70] ++ List.replicate 18 0
def code : Bytes := [0x60, 0x01]

/-- A state of two nodes, `[1]` and `[2]`, with one account; a storage trie of one leaf, `[3]`; the empty trie,
`[128]`. -/
def node1 : Node := .branch (fun i => if i.val = 2 then .hash (K [2]) else .empty) none
def node2 : Node := .extension [5] (.branch
  (fun i => if i.val = 7 then .leaf (List.replicate 61 0 ++ [16]) [9] else .empty) none)
def leaf : Node := .leaf (hexDigits (K (Id.bytes slot)) ++ [16]) [1, 2]

def state : PTrie := .branch (fun i => if i.val = 2 then .extension [5] (.branch
  (fun i => if i.val = 7 then .leaf (List.replicate 61 0) [9] else .empty) none) else .empty) none

def account (storageRoot : Id) : Account := ⟨1, 2, storageRoot, K code⟩

def env (storageRoot : Id) : EvmState.Env :=
  { trie :=
    { K := K
      decode := fun b => if b = [1] then some node1 else if b = [2] then some node2 else if b = [3] then some leaf
        else if b = [128] then some .empty else none
      decodeAccount := fun v => if v = [9] then some (account storageRoot) else none }
    decodeBytes := some
    keccakEmpty := K [] }

/-- A network that has these nodes and the code under every path and address. -/
def net (nodes : List Bytes) : Network
  | .accountTrieNode _ h => (nodes.find? fun b => K b = h).map fun b => (Value.trieNode b).encode
  | .storageTrieNode _ _ h => (nodes.find? fun b => K b = h).map fun b => (Value.trieNode b).encode
  | .bytecode _ h => if h = K code then some (Value.bytecode code).encode else none

theorem commits (r : Id) : Commits (env r).trie [[1], [2]] (K [1]) state := by
  refine .hash [1] node1 _ (by simp) rfl (.branch _ _ _ fun i => ?_)
  by_cases h : i.val = 2
  · simp only [h, if_true]
    refine .hash [2] node2 _ (by simp) rfl (.extension _ _ _ (.branch _ _ _ fun j => ?_))
    by_cases h : j.val = 7
    · simp only [h, if_true]; exact .leaf _ _
    · simp only [h, if_false]; exact .empty
  · simp only [h, if_false]; exact .empty

theorem noEmptyKeys : state.NoEmptyKeys := by
  refine .branch _ _ fun i => ?_
  by_cases h : i.val = 2
  · simp only [h, if_true]
    refine .extension _ _ (by simp) (.branch _ _ fun j => ?_)
    by_cases h : j.val = 7
    · simp only [h, if_true]; exact .leaf _ _ (by simp)
    · simp only [h, if_false]; exact .empty
  · simp only [h, if_false]; exact .empty

theorem storage_commits (r : Id) : Commits (env r).trie [[3]] (K [3])
    (.leaf (hexDigits (K (Id.bytes slot))) [1, 2]) :=
  .hash [3] leaf _ (by simp) rfl (.leaf _ _)

theorem empty_commits (r : Id) : Commits (env r).trie [[128]] (K [128]) .empty :=
  .hash [128] .empty _ (by simp) rfl .empty

theorem noBareHash (r : Id) : NoBareHash (env r) := by
  intro b h
  simp only [env, node1, node2, leaf]
  repeat' split
  all_goals simp

theorem account_is (r : Id) : AccountIs (env r) state (K address) (some (account r)) :=
  ⟨[9], by decide +kernel, rfl⟩

theorem nobody_is (r : Id) : AccountIs (env r) state (K nobody) none := by
  show state.lookup (hexDigits (K nobody)) = none
  decide +kernel

theorem slot_is (r : Id) : SlotIs (env r) (.leaf (hexDigits (K (Id.bytes slot))) [1, 2]) slot 258 := by
  simp only [SlotIs, PTrie.lookup, env, if_true]
  exact ⟨[1, 2], rfl, by decide, by decide⟩

theorem validated (r : Id) (nodes : List Bytes) (hn : ∀ b ∈ nodes, b.length ≤ 1024) : Validated (env r) (net nodes) := by
  intro key bs h
  cases key with
  | accountTrieNode p k =>
    simp only [net, Option.map_eq_some_iff] at h
    obtain ⟨b, hb, rfl⟩ := h
    have h1 := List.find?_some hb
    have h2 := hn b (List.mem_of_find?_eq_some hb)
    simp only [decide_eq_true_eq] at h1
    refine ⟨.valid, ?_, by simp⟩
    simp only [validateContent, C51_state_roundtrip _ _ (.accountNode p k b h2), validateValue,
      validateAccountTrieNode, checkNodeHash, env, h1, if_true, Except.map]
  | storageTrieNode a p k =>
    simp only [net, Option.map_eq_some_iff] at h
    obtain ⟨b, hb, rfl⟩ := h
    have h1 := List.find?_some hb
    have h2 := hn b (List.mem_of_find?_eq_some hb)
    simp only [decide_eq_true_eq] at h1
    refine ⟨.valid, ?_, by simp⟩
    simp only [validateContent, C51_state_roundtrip _ _ (.storageNode a p k b h2), validateValue,
      validateStorageTrieNode, checkNodeHash, env, h1, if_true, Except.map]
  | bytecode a k =>
    simp only [net] at h
    split at h
    · next e =>
      cases h
      subst e
      refine ⟨.valid, ?_, by simp⟩
      simp only [validateContent, C51_state_roundtrip _ _ (.bytecode a (K code) code (by decide)), validateValue,
        validateBytecode, env, if_true]
    · cases h

theorem serves (r : Id) (key : List UInt8 → Id → ContentKey.State) (db : List Bytes) (root : Id)
    (nodes : List Bytes) (hdb : ∀ b ∈ db, b.length ≤ 1024 ∧ (nodes.find? fun b' => K b' = K b) = some b)
    (hk : ∀ p h, net nodes (key p h) = (nodes.find? fun b => K b = h).map fun b => (Value.trieNode b).encode) :
    Serves (env r) (net nodes) key db root := by
  intro path b hst
  obtain ⟨h1, h2⟩ := hdb b (stored_mem hst)
  refine ⟨h1, ?_⟩
  rw [hk]
  show Option.map _ (nodes.find? fun b' => K b' = K b) = _
  rw [h2]; rfl

theorem servesCode (r : Id) (nodes : List Bytes) : ServesCode (env r) (net nodes) state := by
  intro ah a ha _
  obtain ⟨v, _, hv⟩ := ha
  simp only [env] at hv
  split at hv
  · cases hv
    exact ⟨code, by decide, rfl, by simp [net, account]⟩
  · cases hv

end EvmStateExample

open EvmStateExample in
/-- The slots of an account without storage are not read as zero: the reader asks the network for the node of
the empty trie, and fails if the network does not have it, although the network has every node of the state. (The
bridge that fills the network leaves that node out.) -/
theorem C59_empty_storage_violated : ∃ (env : EvmState.Env) (net : Network) (db : List Bytes) (root : Id) (state : PTrie)
    (address : Bytes) (a : Account) (slot : BitVec 256), Validated env net ∧
    Serves env net .accountTrieNode db root ∧ Commits env.trie db root state ∧ state.NoEmptyKeys ∧
    AccountIs env state (env.trie.K address) (some a) ∧ Commits env.trie [[128]] a.storageRoot .empty ∧
    SlotIs env .empty slot 0 ∧
    ∀ rounds, 65 ≤ rounds → (storage env net rounds root address slot .new).1 = .error .network := by
  have hs : Serves (env (K [128])) (EvmStateExample.net [[1], [2]]) .accountTrieNode [[1], [2]] (K [1]) :=
    serves _ _ _ _ _ (by decide +kernel) (fun _ _ => rfl)
  refine ⟨env (K [128]), EvmStateExample.net [[1], [2]], [[1], [2]], K [1], EvmStateExample.state,
    EvmStateExample.address, EvmStateExample.account (K [128]), EvmStateExample.slot,
    validated _ _ (by decide), hs, commits _, noEmptyKeys, account_is _, empty_commits _, rfl, ?_⟩
  intro rounds hr
  have h1 := C59_account_complete _ rounds (K [1]) [] _ _ _ EvmStateExample.address _ (by simp) hs (commits _)
    noEmptyKeys (noBareHash _) hr (account_is (K [128]))
  unfold basic at h1
  unfold storage
  split
  · next h => rw [run, h] at h1; cases h1
  · next h => rw [run, h] at h1; cases h1
  · next a s1 h =>
    rw [run, h] at h1
    cases h1
    have hk := accountState_keys (env (K [128])) (EvmStateExample.net [[1], [2]]) rounds (K [1])
      (K EvmStateExample.address) .new
    have hnone : find s1.cache (.storageTrieNode (K EvmStateExample.address) [] (K [128])) = none := by
      cases hf : find s1.cache (.storageTrieNode (K EvmStateExample.address) [] (K [128])) with
      | none => rfl
      | some v =>
        have h' := h
        simp only [show (env (K [128])).trie.K EvmStateExample.address = K EvmStateExample.address from rfl] at h'
        rw [h'] at hk
        rcases hk _ _ hf with h2 | ⟨p, k, h2⟩
        · cases h2
        · cases h2
    obtain ⟨n, rfl⟩ : ∃ n, rounds = n + 1 := ⟨rounds - 1, by omega⟩
    have h0 : ∀ x : Id, (stripSuffix (hexDigits x) (hexDigits x)).bind Nibbles.tryFromUnpacked = some [] := by
      intro x
      have := stripSuffix_append [] (hexDigits x)
      rw [List.nil_append] at this
      rw [this]; rfl
    have hnet : EvmStateExample.net [[1], [2]] (.storageTrieNode (K EvmStateExample.address) [] (K [128])) = none := by
      decide +kernel
    have hr' : (EvmStateExample.account (K [128])).storageRoot = K [128] := rfl
    have hK : (env (K [128])).trie.K EvmStateExample.address = K EvmStateExample.address := rfl
    simp only [storageAtSlot, traverse, unpack_hash, walk, h0, fetchNode, fetchContent, hr', hK, hnone, hnet]

namespace EvmStateExample

theorem serves_account (r : Id) : Serves (env r) (net [[1], [2], [3]]) .accountTrieNode [[1], [2]] (K [1]) :=
  serves _ _ _ _ _ (by decide +kernel) (fun _ _ => rfl)
theorem serves_storage (r : Id) : Serves (env r) (net [[1], [2], [3]]) (.storageTrieNode (K address)) [[3]] (K [3]) :=
  serves _ _ _ _ _ (by decide +kernel) (fun _ _ => rfl)

-- reads with a network that has the nodes
example : (basic (env (K [3])) (net [[1], [2], [3]]) 65 (K [1]) address .new).1 = .ok (some (account (K [3]))) := by
  decide +kernel
example : (basic (env (K [3])) (net [[1], [2], [3]]) 65 (K [1]) nobody .new).1 = .ok none := by decide +kernel
example : (storage (env (K [3])) (net [[1], [2], [3]]) 65 (K [1]) address slot .new).1 = .ok 258 := by decide +kernel
example : (storage (env (K [3])) (net [[1], [2], [3]]) 65 (K [1]) address 6 .new).1 = .ok 0 := by decide +kernel
example : (storage (env (K [3])) (net [[1], [2], [3]]) 65 (K [1]) nobody slot .new).1 = .ok 0 := by decide +kernel
-- the code is known after the account was read
example : (codeByHash (env (K [3])) (net [[1], [2], [3]]) (K code) .new).1 = .error .unknownCode := by decide +kernel
example : (codeByHash (env (K [3])) (net []) (K code) (run (env (K [3])) 65 (K [1])
    [(net [[1], [2]], .basic address)])).1 = .ok code := by decide +kernel
-- a node is missing
example : (basic (env (K [3])) (net [[1]]) 65 (K [1]) address .new).1 = .error .network := by decide +kernel

example := C59_account (env (K [3])) 65 (K [1]) [(net [[1]], .basic address)] (net [[1], [2]]) _ state address
  (some (account (K [3]))) _ (by intro e he; simp at he; subst he; exact validated _ _ (by decide))
  (validated _ _ (by decide)) (commits _) (by
    have : (basic (env (K [3])) (net [[1], [2]]) 65 (K [1]) address (run (env (K [3])) 65 (K [1])
      [(net [[1]], .basic address)])).1 = .ok (some (account (K [3]))) := by decide +kernel
    exact Prod.ext this rfl)
example := C59_storage (env (K [3])) 65 (K [1]) [] (net [[1], [2], [3]]) _ state address slot 258 _ (by simp)
  (validated _ _ (by decide)) (commits _) (by
    have : (storage (env (K [3])) (net [[1], [2], [3]]) 65 (K [1]) address slot (run (env (K [3])) 65 (K [1])
      [])).1 = .ok 258 := by decide +kernel
    exact Prod.ext this rfl)
example := C59_account_complete (env (K [3])) 65 (K [1]) [(net [[1], [2], [3]], .storage nobody 7)] (net [[1], [2], [3]]) _
  state address _ (by intro e he; simp at he; subst he; exact serves_account _) (serves_account _) (commits _)
  noEmptyKeys (noBareHash _) (by omega) (account_is _)
example := C59_account_complete (env (K [3])) 65 (K [1]) [] (net [[1], [2], [3]]) _
  state nobody none (by simp) (serves_account _) (commits _) noEmptyKeys (noBareHash _) (by omega) (nobody_is _)
example := C59_storage_complete_partial (env (K [3])) 65 (K [1]) [(net [[1], [2], [3]], .basic address)] (net [[1], [2], [3]]) _ _
  state _ address (account (K [3])) slot 258
  (by intro e he; simp at he; subst he; exact ⟨serves_account _, serves_storage _⟩)
  ⟨serves_account _, serves_storage _⟩ (commits _) noEmptyKeys (storage_commits _)
  (.leaf _ _ (by intro h; have := congrArg List.length h; simp [hexDigits] at this)) (noBareHash _) (by omega)
  (account_is _) (slot_is _)
example (s' : Reader) (h : basic (env (K [3])) (net [[1], [2], [3]]) 65 (K [1]) address .new = (.ok (some (account (K [3]))), s')) :=
  C59_code_complete (env (K [3])) 65 (K [1]) [] [(net [[1], [2], [3]], .storage nobody 7)] (net [[1], [2], [3]])
    (net [[1], [2], [3]]) _ state address _ s' (commits _)
    (by intro e he; simp at he; rcases he with rfl | rfl <;> exact ⟨validated _ _ (by decide), servesCode _ _⟩)
    (servesCode _ _) h
example := C59_code (env (K [3])) 65 (K [1]) [(net [[1], [2]], .basic address)] (net []) (K code) code _ rfl
  (by intro e he; simp at he; subst he; exact validated _ _ (by decide)) (validated _ _ (by decide)) (by
    have : (codeByHash (env (K [3])) (net []) (K code) (run (env (K [3])) 65 (K [1])
      [(net [[1], [2]], .basic address)])).1 = .ok code := by decide +kernel
    exact Prod.ext this rfl)
example := C59_no_abort (env (K [3])) 65 (K [1]) (net [[1]]) .new address slot (K code) (noBareHash _) (by omega)
-- a valid root with its proof
example : validateContent (env (K [3])).trie (.accountTrieNode [] (K [1])) (Value.accountTrieNode [[1]] 7).encode =
    some .canonicallyValid := by decide +kernel
example : (basic (env (K [3])) (fun _ => some (Value.accountTrieNode [[1]] 7).encode) 65 (K [1]) address .new).1 =
    .error .valueType := by decide +kernel

end EvmStateExample

end Verif.Props
