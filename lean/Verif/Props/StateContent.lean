import Verif.Lemmas.StateContent
import Verif.Props.Trie
import Verif.Props.Nibbles
import Verif.Props.ContentKey

/-! # C37: validation of state content, and C51: state content values -/

namespace Verif.Props
open Verif.StateContent Verif.Trie Verif.Ssz

/-! ## C51 -/

def ProofFits (p : List Bytes) : Prop := p.length ≤ 65 ∧ ∀ n ∈ p, n.length ≤ 1024

/-- The values that belong to a key: the one that is gossiped, with proofs, and the one that is
retrieved; at most 65 nodes in a proof, 1024 bytes in a node and 32768 bytes of code. -/
inductive Belongs : ContentKey.State → Value → Prop where
  | accountNode (path h n) : n.length ≤ 1024 → Belongs (.accountTrieNode path h) (.trieNode n)
  | account (path h p b) : ProofFits p → Belongs (.accountTrieNode path h) (.accountTrieNode p b)
  | storageNode (a path h n) : n.length ≤ 1024 → Belongs (.storageTrieNode a path h) (.trieNode n)
  | storage (a path h s p b) : ProofFits s → ProofFits p →
      Belongs (.storageTrieNode a path h) (.storageTrieNode s p b)
  | bytecode (a h c) : c.length ≤ 32768 → Belongs (.bytecode a h) (.bytecode c)
  | bytecodeWithProof (a h c p b) : c.length ≤ 32768 → ProofFits p →
      Belongs (.bytecode a h) (.bytecodeWithProof c p b)

theorem decode_trieNode {n : Bytes} (h : n.length ≤ 1024) :
    decodeTrieNode (Value.trieNode n).encode = some (.trieNode n) := by
  have hc : decodeContainer [.var] (encodeContainer [.var] [n]) = some [n] :=
    decode_encodeContainer (by simp [Fits]) (by
      simp [encodeContainer, fixedPart, varPart, headLen, Field.headLen]; omega)
  simp [decodeTrieNode, Value.encode, hc, decodeByteList, maxNode, h]

theorem decode_bytecode {c : Bytes} (h : c.length ≤ 32768) :
    decodeBytecode (Value.bytecode c).encode = some (.bytecode c) := by
  have hc : decodeContainer [.var] (encodeContainer [.var] [c]) = some [c] :=
    decode_encodeContainer (by simp [Fits]) (by
      simp [encodeContainer, fixedPart, varPart, headLen, Field.headLen]; omega)
  simp [decodeBytecode, Value.encode, hc, decodeByteList, maxCode, h]

theorem single_first (n : Bytes) : fromLe ((encodeContainer [.var] [n]).take 4) = 4 := by
  have e : encodeContainer [.var] [n] = toLe 4 4 ++ n := by
    simp [encodeContainer, fixedPart, varPart, headLen, Field.headLen]
  rw [e, List.take_left' (by simp)]
  exact fromLe_toLe_of_lt (by decide)

/-- Encoding and decoding a value under its key gives the value back: in particular the form with a
proof and the form without are never confused. -/
theorem C51_state_roundtrip (key : ContentKey.State) (v : Value) (h : Belongs key v) :
    Value.decode key v.encode = some v := by
  cases h with
  | accountNode path hash n hn =>
    have hnone : decodeAccountTrieNode (Value.trieNode n).encode = none := by
      unfold decodeAccountTrieNode
      cases hd : decodeContainer [.var, .fixed 32] (Value.trieNode n).encode with
      | none => rfl
      | some vs =>
        have := first_offset_eq hd
        rw [Value.encode, single_first] at this
        exact absurd this (by decide)
    simp only [Value.decode, hnone, Option.none_or]
    exact decode_trieNode hn
  | account path hash p b hp =>
    have hl := proof_length hp.1 hp.2
    have hc : decodeContainer [.var, .fixed 32]
        (encodeContainer [.var, .fixed 32] [encodeVarList p, b.bytes]) = some [encodeVarList p, b.bytes] :=
      decode_encodeContainer (by simp [Fits, Id.bytes_length]) (by
        simp [encodeContainer, fixedPart, varPart, headLen, Field.headLen, Id.bytes_length]; omega)
    simp [Value.decode, decodeAccountTrieNode, Value.encode, hc, decodeProof_encode hp.1 hp.2,
      decodeHash_bytes]
  | storageNode a path hash n hn =>
    have hnone : decodeStorageTrieNode (Value.trieNode n).encode = none := by
      unfold decodeStorageTrieNode
      cases hd : decodeContainer [.var, .var, .fixed 32] (Value.trieNode n).encode with
      | none => rfl
      | some vs =>
        have := first_offset_eq hd
        rw [Value.encode, single_first] at this
        exact absurd this (by decide)
    simp only [Value.decode, hnone, Option.none_or]
    exact decode_trieNode hn
  | storage a path hash s p b hs hp =>
    have hl := proof_length hp.1 hp.2
    have hl' := proof_length hs.1 hs.2
    have hc : decodeContainer [.var, .var, .fixed 32] (encodeContainer [.var, .var, .fixed 32]
        [encodeVarList s, encodeVarList p, b.bytes]) = some [encodeVarList s, encodeVarList p, b.bytes] :=
      decode_encodeContainer (by simp [Fits, Id.bytes_length]) (by
        simp [encodeContainer, fixedPart, varPart, headLen, Field.headLen, Id.bytes_length]; omega)
    simp [Value.decode, decodeStorageTrieNode, Value.encode, hc, decodeProof_encode hp.1 hp.2,
      decodeProof_encode hs.1 hs.2, decodeHash_bytes]
  | bytecode a hash c hc =>
    have hnone : decodeBytecodeWithProof (Value.bytecode c).encode = none := by
      unfold decodeBytecodeWithProof
      cases hd : decodeContainer [.var, .var, .fixed 32] (Value.bytecode c).encode with
      | none => rfl
      | some vs =>
        have := first_offset_eq hd
        rw [Value.encode, single_first] at this
        exact absurd this (by decide)
    simp only [Value.decode, hnone, Option.none_or]
    exact decode_bytecode hc
  | bytecodeWithProof a hash c p b hcode hp =>
    have hl := proof_length hp.1 hp.2
    have hc : decodeContainer [.var, .var, .fixed 32] (encodeContainer [.var, .var, .fixed 32]
        [c, encodeVarList p, b.bytes]) = some [c, encodeVarList p, b.bytes] :=
      decode_encodeContainer (by simp [Fits, Id.bytes_length]) (by
        simp [encodeContainer, fixedPart, varPart, headLen, Field.headLen, Id.bytes_length]; omega)
    simp [Value.decode, decodeBytecodeWithProof, Value.encode, hc, decodeProof_encode hp.1 hp.2,
      decodeByteList, maxCode, hcode, decodeHash_bytes]

theorem trieNode_inv {bs : Bytes} {v : Value} (h : decodeTrieNode bs = some v) :
    ∃ n, v = .trieNode n ∧ n.length ≤ 1024 ∧ v.encode = bs := by
  unfold decodeTrieNode at h
  split at h
  · next n hd =>
    rw [Option.map_eq_some_iff] at h
    obtain ⟨n', h1, rfl⟩ := h
    obtain ⟨rfl, hl⟩ := decodeByteList_inv h1
    exact ⟨_, rfl, hl, (encode_decodeContainer hd).2⟩
  · cases h

theorem hash_field {fs : List Field} {vs : List Bytes} {b : Bytes}
    (h : Fits (fs ++ [.fixed 32]) (vs ++ [b])) (hl : fs.length = vs.length) : b.length = 32 := by
  induction fs generalizing vs with
  | nil =>
    cases vs with
    | nil => exact h.1
    | cons v vs => simp at hl
  | cons f fs ih =>
    cases vs with
    | nil => simp at hl
    | cons v vs =>
      cases f with
      | fixed n => exact ih h.2 (by simpa using hl)
      | var => exact ih h (by simpa using hl)

/-- The only bytes decoded to a value are its encoding, and a value decoded under a key belongs to
it. -/
theorem C51_state_canonical (key : ContentKey.State) (bs : Bytes) (v : Value)
    (h : Value.decode key bs = some v) : v.encode = bs ∧ Belongs key v := by
  cases key with
  | accountTrieNode path hash =>
    simp only [Value.decode, Option.or_eq_some_iff] at h
    rcases h with h | ⟨_, h⟩
    · unfold decodeAccountTrieNode at h
      split at h
      · next p b hd =>
        rw [Option.map_eq_some_iff] at h
        obtain ⟨p', h1, rfl⟩ := h
        obtain ⟨h2, h3, h4⟩ := encode_decodeProof h1
        obtain ⟨hf, he⟩ := encode_decodeContainer hd
        have hb : b.length = 32 := hash_field (fs := [.var]) (vs := [p]) hf rfl
        refine ⟨?_, .account _ _ _ _ ⟨h3, h4⟩⟩
        rw [Value.encode, h2, bytes_decodeHash hb, he]
      · cases h
    · obtain ⟨n, rfl, hl, he⟩ := trieNode_inv h
      exact ⟨he, .accountNode _ _ _ hl⟩
  | storageTrieNode a path hash =>
    simp only [Value.decode, Option.or_eq_some_iff] at h
    rcases h with h | ⟨_, h⟩
    · unfold decodeStorageTrieNode at h
      split at h
      · next s p b hd =>
        rw [Option.bind_eq_some_iff] at h
        obtain ⟨s', hs, h⟩ := h
        rw [Option.map_eq_some_iff] at h
        obtain ⟨p', h1, rfl⟩ := h
        obtain ⟨h2, h3, h4⟩ := encode_decodeProof h1
        obtain ⟨h5, h6, h7⟩ := encode_decodeProof hs
        obtain ⟨hf, he⟩ := encode_decodeContainer hd
        have hb : b.length = 32 := hash_field (fs := [.var, .var]) (vs := [s, p]) hf rfl
        refine ⟨?_, .storage _ _ _ _ _ _ ⟨h6, h7⟩ ⟨h3, h4⟩⟩
        rw [Value.encode, h2, h5, bytes_decodeHash hb, he]
      · cases h
    · obtain ⟨n, rfl, hl, he⟩ := trieNode_inv h
      exact ⟨he, .storageNode _ _ _ _ hl⟩
  | bytecode a hash =>
    simp only [Value.decode, Option.or_eq_some_iff] at h
    rcases h with h | ⟨_, h⟩
    · unfold decodeBytecodeWithProof at h
      split at h
      · next c p b hd =>
        rw [Option.bind_eq_some_iff] at h
        obtain ⟨c', hc, h⟩ := h
        obtain ⟨rfl, hcl⟩ := decodeByteList_inv hc
        rw [Option.map_eq_some_iff] at h
        obtain ⟨p', h1, rfl⟩ := h
        obtain ⟨h2, h3, h4⟩ := encode_decodeProof h1
        obtain ⟨hf, he⟩ := encode_decodeContainer hd
        have hb : b.length = 32 := hash_field (fs := [.var, .var]) (vs := [c', p]) hf rfl
        refine ⟨?_, .bytecodeWithProof _ _ _ _ _ hcl ⟨h3, h4⟩⟩
        rw [Value.encode, h2, bytes_decodeHash hb, he]
      · cases h
    · unfold decodeBytecode at h
      split at h
      · next c hd =>
        rw [Option.map_eq_some_iff] at h
        obtain ⟨c', h1, rfl⟩ := h
        obtain ⟨rfl, hl⟩ := decodeByteList_inv h1
        exact ⟨(encode_decodeContainer hd).2, .bytecode _ _ _ hl⟩
      · cases h

/-- The layout: an offset for each part of variable length (the code or the proof of the subject first,
then the account proof), the block hash, then the parts; a proof is the offsets of its nodes and the
nodes. -/
theorem C51_state_format (n c : Bytes) (p q : List Bytes) (b : Id) :
    (Value.trieNode n).encode = [4, 0, 0, 0] ++ n ∧
    (Value.bytecode c).encode = [4, 0, 0, 0] ++ c ∧
    (Value.accountTrieNode p b).encode = [36, 0, 0, 0] ++ b.bytes ++ encodeVarList p ∧
    (Value.storageTrieNode p q b).encode = [40, 0, 0, 0] ++ toLe 4 (40 + (encodeVarList p).length) ++
      b.bytes ++ encodeVarList p ++ encodeVarList q ∧
    (Value.bytecodeWithProof c q b).encode = [40, 0, 0, 0] ++ toLe 4 (40 + c.length) ++
      b.bytes ++ c ++ encodeVarList q := by
  have h4 : toLe 4 4 = [4, 0, 0, 0] := by decide
  have h36 : toLe 4 36 = [36, 0, 0, 0] := by decide
  have h40 : toLe 4 40 = [40, 0, 0, 0] := by decide
  refine ⟨?_, ?_, ?_, ?_, ?_⟩ <;>
    simp [Value.encode, encodeContainer, fixedPart, varPart, headLen, Field.headLen, h4, h36, h40]

example : encodeVarList [[7], [8, 9]] = [8, 0, 0, 0, 9, 0, 0, 0, 7, 8, 9] := by decide

/-! ## C37 -/

/-- The hash that a key names. -/
def namedHash : ContentKey.State → Id
  | .accountTrieNode _ h => h
  | .storageTrieNode _ _ h => h
  | .bytecode _ h => h

/-- The node or code that a value carries for its key: the last node of the first proof. -/
def subject : Value → Option Bytes
  | .trieNode n => some n
  | .accountTrieNode p _ => p.getLast?
  | .storageTrieNode s _ _ => s.getLast?
  | .bytecode c => some c
  | .bytecodeWithProof c _ _ => some c

/-- The value has the form that is gossiped, with proofs. -/
def hasProof : Value → Bool
  | .trieNode _ => false
  | .bytecode _ => false
  | _ => true

theorem node_none_last {env : Env} {h : Id} {path : List UInt8} {p : List Bytes}
    (hv : validateNodeTrieProof env none h path p = .ok ()) :
    p.getLast?.map env.K = some h := by
  cases p with
  | nil => cases hv
  | cons f rest =>
    rw [(C36_no_root env h 0 path f rest).1] at hv
    exact (C36_ends env _ _ _ _ hv).2

theorem account_none {env : Env} {a : Id} {p : List Bytes} {acc : Account}
    (hv : validateAccountState env none a p = .ok acc) :
    ∃ f, p.head? = some f ∧ validateAccountState env (some (env.K f)) a p = .ok acc := by
  cases p with
  | nil => cases hv
  | cons f rest =>
    rw [(C36_no_root env 0 a [] f rest).2] at hv
    exact ⟨f, rfl, hv⟩

theorem map_ok {α β : Type} {r : Except Err α} {f : α → β} {x : β} (h : r.map f = .ok x) :
    ∃ a, r = .ok a ∧ f a = x := by
  cases r with
  | error e => cases h
  | ok a => exact ⟨a, rfl, Except.ok.inj h⟩

/-- Accepted content decodes to a value that belongs to the key and whose node or code has the hash in
the key. It counts as canonical exactly if it has the form with proofs. -/
theorem C37_hash (env : Env) (key : ContentKey.State) (bs : Bytes) (r : Result)
    (h : validateContent env key bs = some r) (hr : r ≠ .invalid) :
    ∃ v, Value.decode key bs = some v ∧ Belongs key v ∧
      (subject v).map env.K = some (namedHash key) ∧
      (r = .canonicallyValid ↔ hasProof v = true) := by
  simp only [validateContent] at h
  split at h
  · cases h; exact absurd rfl hr
  · next v hd =>
    refine ⟨v, hd, (C51_state_canonical key bs v hd).2, ?_⟩
    have hb := (C51_state_canonical key bs v hd).2
    split at h
    · next r' hv =>
      cases h
      cases hb with
      | accountNode path hash n _ =>
        simp only [validateValue, validateAccountTrieNode, checkNodeHash] at hv
        obtain ⟨_, h1, rfl⟩ := map_ok hv
        split at h1
        · next e => exact ⟨by simp [subject, namedHash, e], by simp [hasProof]⟩
        · cases h1
      | storageNode a path hash n _ =>
        simp only [validateValue, validateStorageTrieNode, checkNodeHash] at hv
        obtain ⟨_, h1, rfl⟩ := map_ok hv
        split at h1
        · next e => exact ⟨by simp [subject, namedHash, e], by simp [hasProof]⟩
        · cases h1
      | account path hash p b _ =>
        simp only [validateValue, validateAccountTrieNode] at hv
        obtain ⟨_, h1, rfl⟩ := map_ok hv
        exact ⟨node_none_last h1, by simp [hasProof]⟩
      | storage a path hash s p b _ _ =>
        simp only [validateValue, validateStorageTrieNode] at hv
        split at hv
        · cases hv
        · obtain ⟨_, h1, rfl⟩ := map_ok hv
          exact ⟨(C36_ends env _ _ _ _ h1).2, by simp [hasProof]⟩
      | bytecode a hash c _ =>
        simp only [validateValue, validateBytecode] at hv
        split at hv
        · next e => cases hv; exact ⟨by simp [subject, namedHash, e], by simp [hasProof]⟩
        · cases hv
      | bytecodeWithProof a hash c p b _ _ =>
        simp only [validateValue, validateBytecode] at hv
        split at hv
        · cases hv
        · next e =>
          split at hv
          · cases hv
          · split at hv
            · cases hv
              exact ⟨by simpa [subject, namedHash] using e, by simp [hasProof]⟩
            · cases hv
    · cases h
    · cases h; exact absurd rfl hr

/-- What the proofs of a value show about a state: the account node lies on the path of the key; the
storage node lies on the path of the key in the storage trie of the account stored under the address
hash; the code is the code of that account. `t` is the trie whose root is the first node of the proof. -/
def Shows (env : Env) (db : List Bytes) (t : PTrie) : ContentKey.State → Value → Prop
  | .accountTrieNode path hash, .accountTrieNode _ _ =>
    ∃ s, t.sub path = some s ∧ Commits env db hash s
  | .storageTrieNode addressHash path hash, .storageTrieNode _ _ _ =>
    ∃ v account, t.lookup (hexDigits addressHash) = some v ∧ env.decodeAccount v = some account ∧
      ∀ storage, Commits env db account.storageRoot storage →
        ∃ s, storage.sub path = some s ∧ Commits env db hash s
  | .bytecode addressHash codeHash, .bytecodeWithProof _ _ _ =>
    ∃ v account, t.lookup (hexDigits addressHash) = some v ∧ env.decodeAccount v = some account ∧
      account.codeHash = codeHash
  | _, _ => True

/-- The proof that leads to the state root. -/
def accountProof : Value → List Bytes
  | .accountTrieNode p _ => p
  | .storageTrieNode _ p _ => p
  | .bytecodeWithProof _ p _ => p
  | _ => []

def allNodes : Value → List Bytes
  | .storageTrieNode s p _ => p ++ s
  | v => accountProof v

/-- Accepted content with proofs shows what its key claims, in the state trie named by the first node of
its proof. -/
theorem C37_proofs (env : Env) (db : List Bytes) (key : ContentKey.State) (bs : Bytes) (v : Value)
    (t : PTrie) (root : Id) (h : validateContent env key bs = some .canonicallyValid)
    (hd : Value.decode key bs = some v) (hroot : (accountProof v).head?.map env.K = some root)
    (ht : Commits env db root t) :
    Shows env db t key v ∨ ByteCollision env.K (allNodes v) db := by
  simp only [validateContent, hd] at h
  have hb := (C51_state_canonical key bs v hd).2
  split at h
  · next r' hv =>
    cases h
    cases hb with
    | accountNode path hash n _ => exact Or.inl trivial
    | storageNode a path hash n _ => exact Or.inl trivial
    | bytecode a hash c _ => exact Or.inl trivial
    | account path hash p b _ =>
      simp only [validateValue, validateAccountTrieNode] at hv
      obtain ⟨_, h1, _⟩ := map_ok hv
      cases p with
      | nil => cases h1
      | cons f rest =>
        rw [(C36_no_root env hash 0 path f rest).1] at h1
        simp only [accountProof, List.head?_cons, Option.map_some, Option.some.injEq] at hroot
        rw [hroot] at h1
        exact C36_node_sound env db root hash t path _ ht h1
    | storage a path hash s p b _ _ =>
      simp only [validateValue, validateStorageTrieNode] at hv
      split at hv
      · cases hv
      · next acc hacc =>
        obtain ⟨_, h1, _⟩ := map_ok hv
        obtain ⟨f, hf, hacc⟩ := account_none hacc
        simp only [accountProof, hf, Option.map_some, Option.some.injEq] at hroot
        rw [hroot] at hacc
        by_cases hcol : ByteCollision env.K (allNodes (.storageTrieNode s p b)) db
        · exact Or.inr hcol
        · left
          rcases C36_account_sound env db root a t p acc ht hacc with ⟨v, h2, h3⟩ | hc
          · refine ⟨v, acc, h2, h3, fun storage hs => ?_⟩
            rcases C36_node_sound env db acc.storageRoot hash storage path s hs h1 with h4 | hc
            · exact h4
            · exact absurd (hc.mono (by simp [allNodes]) (fun _ h => h)) hcol
          · exact absurd (hc.mono (by simp [allNodes]) (fun _ h => h)) hcol
    | bytecodeWithProof a hash c p b _ _ =>
      simp only [validateValue, validateBytecode] at hv
      split at hv
      · cases hv
      · split at hv
        · cases hv
        · next acc hacc =>
          split at hv
          · next e =>
            obtain ⟨f, hf, hacc⟩ := account_none hacc
            simp only [accountProof, hf, Option.map_some, Option.some.injEq] at hroot
            rw [hroot] at hacc
            rcases C36_account_sound env db root a t p acc ht hacc with ⟨v, h2, h3⟩ | hc
            · exact Or.inl ⟨v, acc, h2, h3, e⟩
            · exact Or.inr hc
          · cases hv
  · cases h
  · cases h

/-- Content of a form that does not belong to the key is not accepted, whatever it is. -/
theorem C37_wrong_form (env : Env) (key : ContentKey.State) (v : Value) (r : Result)
    (h : validateValue env key v = .ok r) :
    (∃ p b, key = .accountTrieNode p b ∧ ((∃ n, v = .trieNode n) ∨ ∃ q c, v = .accountTrieNode q c)) ∨
    (∃ a p b, key = .storageTrieNode a p b ∧
      ((∃ n, v = .trieNode n) ∨ ∃ s q c, v = .storageTrieNode s q c)) ∨
    (∃ a b, key = .bytecode a b ∧ ((∃ c, v = .bytecode c) ∨ ∃ c q b, v = .bytecodeWithProof c q b)) := by
  cases key <;> cases v <;>
    simp_all [validateValue, validateAccountTrieNode, validateStorageTrieNode, validateBytecode]

/-- Validation never aborts, for any content and any key decoded from bytes. -/
theorem C37_no_panic (env : Env) (key : ContentKey.State) (keyBytes bs : Bytes)
    (hk : ContentKey.State.ofBytes keyBytes = some key) : (validateContent env key bs).isSome := by
  have hpath : ∀ p, (∃ h, key = .accountTrieNode p h) ∨ (∃ a h, key = .storageTrieNode a p h) →
      ∀ n ∈ p, n.toNat < 16 := by
    have hvk := (C06_state_strict keyBytes key hk).1
    rintro p (⟨h, rfl⟩ | ⟨a, h, rfl⟩)
    · exact hvk.2
    · exact hvk.2
  simp only [validateContent]
  split
  · rfl
  · next v hd =>
    split
    · rfl
    · next hv =>
      exfalso
      have map_err : ∀ {α : Type} {x : Except Err α} {f : α → Result}, x.map f = .error .panic →
          x = .error .panic := by
        intro α x f h
        cases x with
        | error e => simpa [Except.map] using h
        | ok a => cases h
      have hcheck : ∀ n h, checkNodeHash env n h ≠ .error .panic := by
        intro n h he
        simp only [checkNodeHash] at he
        split at he <;> cases he
      cases key with
      | accountTrieNode path hash =>
        have hp := hpath path (Or.inl ⟨_, rfl⟩)
        cases v <;> simp only [validateValue, validateAccountTrieNode] at hv <;>
          first | cases hv; done | skip
        · exact hcheck _ _ (map_err hv)
        · exact (C36_no_panic env none hash 0 path _ hp).1 (map_err hv)
      | storageTrieNode a path hash =>
        have hp := hpath path (Or.inr ⟨_, _, rfl⟩)
        cases v <;> simp only [validateValue, validateStorageTrieNode] at hv <;>
          first | cases hv; done | skip
        · exact hcheck _ _ (map_err hv)
        · split at hv
          · next e he => cases hv; exact (C36_no_panic env none hash a path _ hp).2 he
          · exact (C36_no_panic env _ hash 0 path _ hp).1 (map_err hv)
      | bytecode a hash =>
        cases v <;> simp only [validateValue, validateBytecode] at hv <;>
          first | cases hv; done | skip
        · split at hv <;> cases hv
        · split at hv
          · cases hv
          · split at hv
            · next e he => cases hv; exact (C36_no_panic env none hash a [] _ (by simp)).2 he
            · split at hv <;> cases hv
    · rfl

/-- The state root is not compared with a header (the check is switched off), so any block hash is
accepted with the same proof: content can be canonically valid although the block it names has a
different state. -/
theorem C37_block_hash_ignored (env : Env) (key : ContentKey.State) (v w : Value)
    (h : match v, w with
      | .accountTrieNode p _, .accountTrieNode q _ => p = q
      | .storageTrieNode s p _, .storageTrieNode u q _ => s = u ∧ p = q
      | .bytecodeWithProof c p _, .bytecodeWithProof d q _ => c = d ∧ p = q
      | _, _ => False) : validateValue env key v = validateValue env key w := by
  cases v <;> cases w <;> simp only at h
  · subst h; cases key <;> rfl
  · obtain ⟨rfl, rfl⟩ := h; cases key <;> rfl
  · obtain ⟨rfl, rfl⟩ := h; cases key <;> rfl

namespace StateContentExample
open TrieExample

def value : Value := .accountTrieNode [[1], [2]] 77
def code : Value := .bytecodeWithProof [0, 4] [[1], [2]] 77

example : Belongs (.accountTrieNode [2] (K [2])) value := .account _ _ _ _ ⟨by decide, by decide⟩
example : validateContent env (.accountTrieNode [2] (K [2])) value.encode = some .canonicallyValid := by
  decide +kernel
example : validateContent env (.accountTrieNode [3] (K [2])) value.encode = some .invalid := by
  decide +kernel
example : validateContent env (.accountTrieNode [2] (K [2])) (Value.trieNode [2]).encode = some .valid := by
  decide +kernel
example : validateContent env (.accountTrieNode [2] (K [2])) (Value.trieNode [3]).encode = some .invalid := by
  decide +kernel
example : validateContent env (.bytecode addr 4) code.encode = some .canonicallyValid := by
  decide +kernel
example : validateContent env (.bytecode addr 5) code.encode = some .invalid := by decide +kernel
-- the account has storage root 3, the hash of [3]; an empty storage proof is not enough
example : validateContent env (.storageTrieNode addr [] 3)
    (Value.storageTrieNode [[3]] [[1], [2]] 0).encode = some .canonicallyValid := by decide +kernel
example : validateContent env (.storageTrieNode addr [] 2)
    (Value.storageTrieNode [[2]] [[1], [2]] 0).encode = some .invalid := by decide +kernel
example : (ContentKey.State.ofBytes
    (ContentKey.State.accountTrieNode [2] (K [2])).toBytes).isSome := by decide +kernel

end StateContentExample

end Verif.Props
