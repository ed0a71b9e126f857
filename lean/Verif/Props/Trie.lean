import Verif.Lemmas.Trie
import Verif.Lemmas.ExceptEq

/-! # C36: trie proofs

`Commits env db root t`: the trie with root hash `root` is `t`, and its encoded nodes are in `db`
(Props/TrieSpec). Soundness statements have the alternative that a node of the proof and a different
genuine node have the same hash. -/

namespace Verif.Props
open Verif.Trie

/-- An accepted node proof shows a node of the trie: the path leads to a subtrie whose root has the
claimed hash. -/
theorem C36_node_sound (env : Env) (db : List Bytes) (root nodeHash : Id) (t : PTrie)
    (path : List UInt8) (proof : List Bytes) (hc : Commits env db root t)
    (h : validateNodeTrieProof env (some root) nodeHash path proof = .ok ()) :
    (∃ t', t.sub path = some t' ∧ Commits env db nodeHash t') ∨ ByteCollision env.K proof db := by
  simp only [validateNodeTrieProof] at h
  split at h
  · cases h
  · next last r hv =>
    obtain ⟨first, rest, rfl, hk, hf⟩ := validateTrieProof_some hv
    split at h
    · cases h
    · next hr =>
      have hr : r = [] := by simpa using hr
      subst hr
      simp only [checkNodeHash] at h
      split at h
      · next hl =>
        rcases hash_inv hc hk with ⟨hm, n, hd, hrep⟩ | ⟨b, hb, hne, he⟩
        · rcases follow_sound rest first path t n last [] hm hd hrep hf with
            ⟨c, t', n', rfl, hm', hd', hrep', hs, _⟩ | hcol
          · left
            refine ⟨t', ?_, ?_⟩
            · rw [hs [], sub_nil]
            · rw [Commits, ← hl]
              exact .hash last n' t' hm' hd' hrep'
          · right
            exact hcol.mono (by simp) (by simp)
        · right
          exact ⟨first, by simp, b, hb, hne, he⟩
      · cases h

/-- An accepted account proof gives the account stored in the trie under the digits of the address
hash. -/
theorem C36_account_sound (env : Env) (db : List Bytes) (root addressHash : Id) (t : PTrie)
    (proof : List Bytes) (a : Account) (hc : Commits env db root t)
    (h : validateAccountState env (some root) addressHash proof = .ok a) :
    (∃ v, t.lookup (hexDigits addressHash) = some v ∧ env.decodeAccount v = some a) ∨
      ByteCollision env.K proof db := by
  simp only [validateAccountState, unpack_hash] at h
  split at h
  · cases h
  · next last r hv =>
    obtain ⟨first, rest, rfl, hk, hf⟩ := validateTrieProof_some hv
    split at h
    · cases h
    · next v hva =>
      split at h
      · cases h
      · next a' ha =>
        cases h
        rcases hash_inv hc hk with ⟨hm, n, hd, hrep⟩ | ⟨b, hb, hne, he⟩
        · rcases follow_sound rest first _ t n last r hm hd hrep hf with
            ⟨c, t', n', hp, hm', hd', hrep', _, hl⟩ | hcol
          · left
            refine ⟨v, ?_, ha⟩
            rw [hp, hl]
            simp only [valueAt, hd'] at hva
            cases ht : n'.traverse r <;> rw [ht] at hva <;> cases hva
            exact traverse_value hrep' ht
          · right
            exact hcol.mono (by simp) (by simp)
        · right
          exact ⟨first, by simp, b, hb, hne, he⟩

/-- Two accepted account proofs for the same root and address show the same account, whether or not the
root is that of a well-formed trie. -/
theorem C36_account_unique (env : Env) (root addressHash : Id) (p₁ p₂ : List Bytes) (a₁ a₂ : Account)
    (h₁ : validateAccountState env (some root) addressHash p₁ = .ok a₁)
    (h₂ : validateAccountState env (some root) addressHash p₂ = .ok a₂) :
    a₁ = a₂ ∨ ByteCollision env.K p₁ p₂ := by
  simp only [validateAccountState] at h₁ h₂
  split at h₁
  · cases h₁
  · next l₁ r₁ hv₁ =>
    split at h₂
    · cases h₂
    · next l₂ r₂ hv₂ =>
      obtain ⟨f₁, q₁, rfl, hk₁, hf₁⟩ := validateTrieProof_some hv₁
      obtain ⟨f₂, q₂, rfl, hk₂, hf₂⟩ := validateTrieProof_some hv₂
      split at h₁
      · cases h₁
      · next v₁ hva₁ =>
        split at h₂
        · cases h₂
        · next v₂ hva₂ =>
          rcases follow_unique q₁ q₂ f₁ f₂ _ l₁ l₂ r₁ r₂ v₁ v₂ (hk₁.trans hk₂.symm) hf₁ hf₂ hva₁ hva₂
            with rfl | hc
          · left
            cases ha : env.decodeAccount v₁ with
            | none => rw [ha] at h₁; cases h₁
            | some a => rw [ha] at h₁ h₂; cases h₁; cases h₂; rfl
          · exact Or.inr hc

/-- Every account of a genuine trie has an accepted proof made of the trie's own nodes; it fits the
limit of 65 nodes of a proof unless some node is nothing but the hash of another. Needs that no leaf has
an empty key: the code rejects such leaves. -/
theorem C36_account_complete (env : Env) (db : List Bytes) (root addressHash : Id) (t : PTrie)
    (v : Bytes) (a : Account) (hc : Commits env db root t) (hw : t.NoEmptyKeys)
    (hl : t.lookup (hexDigits addressHash) = some v) (ha : env.decodeAccount v = some a) :
    ∃ proof, proof ⊆ db ∧ validateAccountState env (some root) addressHash proof = .ok a ∧
      ((∀ b ∈ db, ∀ h, env.decode b ≠ some (.hash h)) → proof.length ≤ 65) := by
  rcases rest_exists hc hw _ _ hl with h1 | ⟨h, r, h1, ⟨first, rest, last, r', n, k1, k2, k3, k4, k5, k6, k7⟩, _⟩
  · simp [Node.traverse] at h1
  · simp only [Node.traverse, Traversal.node.injEq] at h1
    obtain ⟨rfl, rfl⟩ := h1
    refine ⟨first :: rest, ?_, ?_, ?_⟩
    · intro x hx
      rcases List.mem_cons.mp hx with rfl | hx
      · exact k2
      · exact k3 hx
    · simp only [validateAccountState, unpack_hash, validateTrieProof, checkNodeHash, k1, if_true, k4,
        valueAt, k5, k6, ha]
    · intro hno
      have h64 : (hexDigits addressHash).length = 64 := by simp [hexDigits]
      have := k7 hno
      simp only [List.length_cons]
      omega

/-- Every node of a genuine trie that is stored by hash has an accepted proof made of the trie's own
nodes. -/
theorem C36_node_complete (env : Env) (db : List Bytes) (root : Id) (path : List UInt8) (b : Bytes)
    (h : StoredAt env db (.hash root) path b) :
    ∃ proof, proof ⊆ db ∧ validateNodeTrieProof env (some root) (env.K b) path proof = .ok () := by
  obtain ⟨h', r, first, rest, h1, h2, h3, h4, h5⟩ := stored_proof h
  simp only [Node.traverse, Traversal.node.injEq] at h1
  obtain ⟨rfl, rfl⟩ := h1
  refine ⟨first :: rest, ?_, ?_⟩
  · intro x hx
    rcases List.mem_cons.mp hx with rfl | hx
    · exact h3
    · exact h4 hx
  · simp [validateNodeTrieProof, validateTrieProof, checkNodeHash, h2, h5]

/-- Without a root to compare with, a proof is checked against the hash of its own first node. -/
theorem C36_no_root (env : Env) (nodeHash addressHash : Id) (path : List UInt8) (first : Bytes)
    (rest : List Bytes) :
    validateNodeTrieProof env none nodeHash path (first :: rest) =
      validateNodeTrieProof env (some (env.K first)) nodeHash path (first :: rest) ∧
    validateAccountState env none addressHash (first :: rest) =
      validateAccountState env (some (env.K first)) addressHash (first :: rest) := by
  simp [validateNodeTrieProof, validateAccountState, validateTrieProof, checkNodeHash]

/-- The proof starts at the root and ends at the node asked for. -/
theorem C36_ends (env : Env) (root nodeHash : Id) (path : List UInt8) (proof : List Bytes)
    (h : validateNodeTrieProof env (some root) nodeHash path proof = .ok ()) :
    (proof.head?.map env.K = some root) ∧ proof.getLast?.map env.K = some nodeHash := by
  simp only [validateNodeTrieProof] at h
  split at h
  · cases h
  · next last r hv =>
    obtain ⟨first, rest, rfl, hk, hf⟩ := validateTrieProof_some hv
    split at h
    · cases h
    · simp only [checkNodeHash] at h
      split at h
      · next hl =>
        refine ⟨by simp [hk], ?_⟩
        have e := follow_last env rest first path last r hf
        rw [e, ← hl]
        rfl
      · cases h

/-- No sequence of bytes offered as a proof makes validation abort, for any path of nibbles. -/
theorem C36_no_panic (env : Env) (root : Option Id) (nodeHash addressHash : Id) (path : List UInt8)
    (proof : List Bytes) (hp : ∀ n ∈ path, n.toNat < 16) :
    validateNodeTrieProof env root nodeHash path proof ≠ .error .panic ∧
    validateAccountState env root addressHash proof ≠ .error .panic := by
  constructor
  · intro h
    simp only [validateNodeTrieProof] at h
    split at h
    · next e hv => cases h; exact (validateTrieProof_no_panic env root path proof hp).1 hv
    · split at h
      · cases h
      · simp only [checkNodeHash] at h
        split at h <;> cases h
  · intro h
    have hp' := unpackAll_lt addressHash.bytes
    have hq := validateTrieProof_no_panic env root _ proof hp'
    simp only [validateAccountState] at h
    split at h
    · next e hv => cases h; exact hq.1 hv
    · next last r hv =>
      have hr := hq.2 last r hv
      split at h
      · next e hva =>
        cases h
        simp only [valueAt] at hva
        split at hva
        · cases hva
        · next n hd =>
          have := (traverse_no_panic n r hr).1
          cases ht : n.traverse r <;> rw [ht] at hva <;> first | cases hva; done | exact this ht
      · split at h <;> cases h

/-- A leaf whose key is used up is rejected, so an account whose leaf sits at the full depth of the trie
(its address hash shares 63 digits with another) has no accepted proof. -/
theorem C36_full_depth_violated : ∃ (env : Env) (db : List Bytes) (root addressHash : Id) (t : PTrie)
    (v : Bytes) (a : Account), Commits env db root t ∧ t.lookup (hexDigits addressHash) = some v ∧
    env.decodeAccount v = some a ∧
    ∀ proof, validateAccountState env (some root) addressHash proof ≠ .ok a := by
  let pre := List.replicate 63 (0 : UInt8)
  let node : Node := .extension pre (.branch (fun i => if i.val < 2 then .leaf [16] [7] else .empty) none)
  let env : Env :=
    { K := fun b => if b = [1] then 1 else 0
      decode := fun b => if b = [1] then some node else none
      decodeAccount := fun _ => some ⟨0, 0, 0, 0⟩ }
  refine ⟨env, [[1]], 1, 0,
    .extension pre (.branch (fun i => if i.val < 2 then .leaf [] [7] else .empty) none), [7],
    ⟨0, 0, 0, 0⟩, ?_, ?_, rfl, ?_⟩
  · have : (1 : Id) = env.K [1] := rfl
    rw [Commits, this]
    refine .hash [1] node _ (by simp) rfl (.extension _ _ _ (.branch _ _ _ ?_))
    intro i
    by_cases h : i.val < 2
    · simp only [h, if_true]; exact .leaf [] [7]
    · simp only [h, if_false]; exact .empty
  · have e : hexDigits 0 = pre ++ [0] := by decide +kernel
    rw [e, lookup_extension_append]
    simp [PTrie.lookup]
  · intro proof h
    simp only [validateAccountState, unpack_hash] at h
    split at h
    · cases h
    · next last r hv =>
      obtain ⟨first, rest, rfl, hk, hf⟩ := validateTrieProof_some hv
      have hfirst : first = [1] := by
        apply Classical.byContradiction
        intro hne
        have h0 : env.K first = 0 := if_neg hne
        rw [h0] at hk
        exact absurd hk (by decide)
      subst hfirst
      have ht : node.traverse (hexDigits 0) = .error .emptyLeafKey := by
        have e : hexDigits 0 = pre ++ [0] := by decide +kernel
        rw [e]
        have hp : pre ≠ [] := by decide
        simp only [node, Node.traverse, hp, if_false, stripPrefix_append]
        rfl
      have hd : env.decode [1] = some node := rfl
      cases rest with
      | nil =>
        simp only [follow, Except.ok.injEq, Prod.mk.injEq] at hf
        obtain ⟨rfl, rfl⟩ := hf
        simp only [valueAt, hd, ht] at h
        cases h
      | cons next rest =>
        simp only [follow, nextNode, hd, ht] at hf
        cases hf

namespace TrieExample

/-- A hash that keeps the first byte, and a trie of two hashed nodes: a branch whose third child is an
extension to a branch with leaves. -/
def K (b : Bytes) : Id := BitVec.ofNat 256 (fromBe (b.take 31))

def account : Account := ⟨1, 2, 3, 4⟩

def addr : Id := BitVec.ofNat 256 (2 * 16 ^ 63 + 5 * 16 ^ 62 + 7 * 16 ^ 61)

def node1 : Node := .branch (fun i => if i.val = 2 then .hash (K [2]) else .empty) none
def node2 : Node := .extension [5] (.branch
  (fun i => if i.val = 7 then .leaf (List.replicate 61 0 ++ [16]) [9] else .empty) none)

def env : Env :=
  { K := K
    decode := fun b => if b = [1] then some node1 else if b = [2] then some node2 else none
    decodeAccount := fun v => if v = [9] then some account else none }

def trie : PTrie := .branch (fun i => if i.val = 2 then .extension [5] (.branch
  (fun i => if i.val = 7 then .leaf (List.replicate 61 0) [9] else .empty) none) else .empty) none

theorem commits : Commits env [[1], [2]] (K [1]) trie := by
  refine .hash [1] node1 _ (by simp) rfl (.branch _ _ _ fun i => ?_)
  by_cases h : i.val = 2
  · simp only [h, if_true]
    refine .hash [2] node2 _ (by simp) rfl (.extension _ _ _ (.branch _ _ _ fun j => ?_))
    by_cases h : j.val = 7
    · simp only [h, if_true]; exact .leaf _ _
    · simp only [h, if_false]; exact .empty
  · simp only [h, if_false]; exact .empty

theorem noEmptyKeys : trie.NoEmptyKeys := by
  refine .branch _ _ fun i => ?_
  by_cases h : i.val = 2
  · simp only [h, if_true]
    refine .extension _ _ (by simp) (.branch _ _ fun j => ?_)
    by_cases h : j.val = 7
    · simp only [h, if_true]; exact .leaf _ _ (by simp)
    · simp only [h, if_false]; exact .empty
  · simp only [h, if_false]; exact .empty

-- accepted proofs of an account and of a node, and rejected ones
example : validateAccountState env (some (K [1])) addr [[1], [2]] = .ok account := by decide +kernel
example : trie.lookup (hexDigits addr) = some [9] := by decide +kernel
example : validateNodeTrieProof env (some (K [1])) (K [2]) [2] [[1], [2]] = .ok () := by decide +kernel
example : validateNodeTrieProof env (some (K [1])) (K [2]) [3] [[1], [2]] =
    .error (.unexpectedEmptyNode .emptyNode) := by decide +kernel
example : validateNodeTrieProof env (some (K [1])) (K [2]) [2, 5] [[1], [2]] = .error .pathTooLong := by
  decide +kernel
example : validateNodeTrieProof env (some (K [2])) (K [2]) [2] [[1], [2]] = .error .invalidNodeHash := by
  decide +kernel
example : validateAccountState env (some (K [1])) addr [[1]] = .error .leafNodeExpected := by
  decide +kernel
example : validateAccountState env (some (K [1])) addr [] = .error .emptyTrieProof := by decide +kernel
example : StoredAt env [[1], [2]] (.hash (K [1])) [2] [2] := by
  refine .hash [1] node1 _ _ (by simp) rfl (.branch _ _ ⟨2, by omega⟩ [] _ ?_)
  exact .here [2] (by simp)
-- a path that is not made of nibbles would abort
example : validateNodeTrieProof env (some (K [1])) (K [2]) [16] [[1], [2]] = .error .panic := by
  decide +kernel

example := C36_account_sound env _ _ addr trie [[1], [2]] account commits (by decide +kernel)
example := C36_node_sound env _ _ (K [2]) trie [2] [[1], [2]] commits (by decide +kernel)
example := C36_account_complete env _ _ addr trie [9] account commits noEmptyKeys (by decide +kernel) rfl

end TrieExample

end Verif.Props
