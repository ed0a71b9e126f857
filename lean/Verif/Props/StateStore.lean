import Verif.Lemmas.StateStore
import Verif.Props.StateContent

/-! # C56: the storage of the state network -/

namespace Verif.Props
open Verif.Store Verif.StateContent Verif.StateStore

/-! ## Specification -/

/-- The bytes under which a node or a code is retrieved: the form without proof. -/
def retrieved : ContentKey.State → Bytes → Bytes
  | .accountTrieNode _ _, n => (Value.trieNode n).encode
  | .storageTrieNode _ _ _, n => (Value.trieNode n).encode
  | .bytecode _ _, c => (Value.bytecode c).encode

/-- The content carries, with a proof, the node or code whose hash is in the key. -/
def Carries (K : Bytes → Id) (key : ContentKey.State) (bs n : Bytes) : Prop :=
  ∃ v, Belongs key v ∧ v.encode = bs ∧ hasProof v = true ∧ subject v = some n ∧ K n = namedHash key

/-- The states of a state storage that began on an empty database. -/
def StateReachable (env : Store.Env) (K : Bytes → Id) (st : Config × Store) : Prop :=
  ∃ cfg sps s ops, create env cfg sps [] = .ok s ∧ StateStore.run env K (cfg, s) ops = .ok st

/-- An operation that offers this content under this key to the storage. -/
def Puts (op : StateStore.Op) (key : ContentKey.State) (bs : Bytes) : Prop :=
  (∃ sps, op = .put sps key bs) ∨ ∃ sps turns tries cfg sps', op = .kill sps key bs turns tries cfg sps'

/-! ## Theorems -/

theorem convert_iff (K : Bytes → Id) (key : ContentKey.State) (bs w : Bytes) :
    convert K key bs = .ok w ↔ ∃ n, Carries K key bs n ∧ w = retrieved key n := by
  constructor
  · intro h
    unfold convert at h
    split at h
    · cases h
    · next v hd =>
      obtain ⟨he, hb⟩ := C51_state_canonical key bs v hd
      cases hb with
      | accountNode path hash n hn => cases h
      | storageNode a path hash n hn => cases h
      | bytecode a hash c hc => cases h
      | account path hash p b hp =>
        simp only [convertAccount] at h
        split at h
        · cases h
        · next last hl =>
          split at h
          · cases h
          · next hk =>
            cases h
            exact ⟨last, ⟨_, .account path hash p b hp, he, rfl, hl, by simpa [namedHash] using hk⟩, rfl⟩
      | storage a path hash s p b hs hp =>
        simp only [convertStorage] at h
        split at h
        · cases h
        · next last hl =>
          split at h
          · cases h
          · next hk =>
            cases h
            exact ⟨last, ⟨_, .storage a path hash s p b hs hp, he, rfl, hl, by simpa [namedHash] using hk⟩, rfl⟩
      | bytecodeWithProof a hash c p b hc hp =>
        simp only [convertBytecode] at h
        split at h
        · cases h
        · next hk =>
          cases h
          exact ⟨c, ⟨_, .bytecodeWithProof a hash c p b hc hp, he, rfl, rfl, by simpa [namedHash] using hk⟩, rfl⟩
  · rintro ⟨n, ⟨v, hb, rfl, hp, hs, hk⟩, rfl⟩
    unfold convert
    rw [C51_state_roundtrip key v hb]
    cases hb with
    | accountNode path hash n hn => cases hp
    | storageNode a path hash n hn => cases hp
    | bytecode a hash c hc => cases hp
    | account path hash p b _ =>
      simp only [subject, namedHash] at hs hk
      simp [convertAccount, hs, hk, retrieved]
    | storage a path hash s p b _ _ =>
      simp only [subject, namedHash] at hs hk
      simp [convertStorage, hs, hk, retrieved]
    | bytecodeWithProof a hash c p b _ _ =>
      simp only [subject, namedHash, Option.some.injEq] at hs hk
      subst hs
      simp [convertBytecode, hk, retrieved]

theorem carries_unique {K : Bytes → Id} {key : ContentKey.State} {bs n m : Bytes}
    (h1 : Carries K key bs n) (h2 : Carries K key bs m) : n = m := by
  obtain ⟨v, hb, he, -, hs, -⟩ := h1
  obtain ⟨w, hb', he', -, hs', -⟩ := h2
  have := C51_state_roundtrip key v hb
  rw [he, ← he', C51_state_roundtrip key w hb'] at this
  cases this
  rw [hs] at hs'
  exact Option.some.inj hs'

/-- A node or code that was carried by content fits, so its retrieved form belongs to the key. -/
theorem carries_valid {tenv : Trie.Env} {key : ContentKey.State} {bs n : Bytes}
    (h : Carries tenv.K key bs n) : validateContent tenv key (retrieved key n) = some .valid := by
  obtain ⟨v, hb, -, hp, hs, hk⟩ := h
  have last : ∀ {p : List Bytes}, ProofFits p → p.getLast? = some n → n.length ≤ 1024 :=
    fun hf hl => hf.2 _ (List.mem_of_getLast? hl)
  cases hb with
  | accountNode path hash n hn => cases hp
  | storageNode a path hash n hn => cases hp
  | bytecode a hash c hc => cases hp
  | account path hash p b hf =>
    simp only [subject, namedHash] at hs hk
    simp [validateContent, retrieved, C51_state_roundtrip _ _ (.accountNode path hash n (last hf hs)),
      validateValue, validateAccountTrieNode, Trie.checkNodeHash, hk, Except.map]
  | storage a path hash s p b hf _ =>
    simp only [subject, namedHash] at hs hk
    simp [validateContent, retrieved, C51_state_roundtrip _ _ (.storageNode a path hash n (last hf hs)),
      validateValue, validateStorageTrieNode, Trie.checkNodeHash, hk, Except.map]
  | bytecodeWithProof a hash c p b hc _ =>
    simp only [subject, namedHash, Option.some.injEq] at hs hk
    subst hs
    simp [validateContent, retrieved, C51_state_roundtrip _ _ (.bytecode a hash c hc),
      validateValue, validateBytecode, hk]

/-- Every state of the storage is a state of the store below it, so that the properties C20 to C24 hold
of it. -/
theorem C56_reachable (env : Store.Env) (K : Bytes → Id) (st : Config × Store)
    (h : StateReachable env K st) : Reachable env st := by
  obtain ⟨cfg, sps, s, ops, h1, h2⟩ := h
  exact ⟨cfg, sps, s, _, h1, (run_eq env K ops _ _).mp h2⟩

/-- `put` succeeds exactly for content within the radius that carries, with a proof, the node or code
named by its key; then the retrieved form of that node or code is what is inserted. Nothing is reported as
dropped. -/
theorem C56_put (env : Store.Env) (hq : Sql env) (K : Bytes → Id) (cfg : Config) (s : Store)
    (hr : Reachable env (cfg, s)) (sps : List Speed) (key : ContentKey.State) (bs : Bytes) :
    ((∃ r, StateStore.put env K cfg sps s key bs = .ok r) ↔
      (∃ n, Carries K key bs n) ∧ xorDistance cfg.node (env.idOf key.toBytes) ≤ s.radius) ∧
    ∀ s' d, StateStore.put env K cfg sps s key bs = .ok (s', d) → d = [] ∧
      ∃ n dropped, Carries K key bs n ∧
        Store.insert env cfg sps s key.toBytes (retrieved key n) = .ok (s', dropped) := by
  constructor
  · constructor
    · rintro ⟨r, h⟩
      unfold StateStore.put at h
      split at h
      · cases h
      · next v hc =>
        obtain ⟨n, hn, rfl⟩ := (convert_iff K key bs v).mp hc
        refine ⟨⟨n, hn⟩, ?_⟩
        apply Classical.byContradiction
        intro hlt
        rw [insert_refused env cfg sps s _ _ (by unfold distance; omega)] at h
        cases h
    · rintro ⟨⟨n, hn⟩, hd⟩
      unfold StateStore.put
      rw [(convert_iff K key bs _).mpr ⟨n, hn, rfl⟩]
      obtain ⟨more, ht⟩ := (reachable_inv hq hr).tracked
      obtain ⟨s', _, _, _, h1, -⟩ := insert_spec env cfg hq sps s more key.toBytes (retrieved key n) ht hd
      simp only [h1]
      exact ⟨_, rfl⟩
  · intro s' d h
    unfold StateStore.put at h
    split at h
    · cases h
    · next v hc =>
      obtain ⟨n, hn, rfl⟩ := (convert_iff K key bs v).mp hc
      split at h
      · cases h
      · next s1 dropped hi =>
        cases h
        exact ⟨rfl, n, dropped, hn, hi⟩

/-- Whatever was put, in whatever order, with restarts and kills: what `get` returns for a key is valid
content for that key, namely the node or code carried by content that was put under this key, without its
proof. The only exception is another key that was put and has the same content id. -/
theorem C56_served (tenv : Trie.Env) (env : Store.Env) (hq : Sql env) (cfg : Config) (sps : List Speed)
    (s0 : Store) (ops : List StateStore.Op) (st : Config × Store) (hc : create env cfg sps [] = .ok s0)
    (hr : StateStore.run env tenv.K (cfg, s0) ops = .ok st) (key : ContentKey.State) (v : Bytes)
    (hk : ValidStateKey key)
    (hput : ∀ op ∈ ops, ∀ key' bs, Puts op key' bs → ValidStateKey key')
    (hget : StateStore.get env st.2 key = some v) :
    (validateContent tenv key v = some .valid ∧
      ∃ op ∈ ops, ∃ bs n, Puts op key bs ∧ Carries tenv.K key bs n ∧ v = retrieved key n) ∨
    ∃ op ∈ ops, ∃ key' bs, Puts op key' bs ∧ key' ≠ key ∧
      env.idOf key'.toBytes = env.idOf key.toBytes := by
  have hreach : Reachable env st := ⟨cfg, sps, s0, _, hc, (run_eq env tenv.K ops _ _).mp hr⟩
  have hst : ∃ k, Stored st.2 (env.idOf key.toBytes) k v := by
    rcases (C20_lookup env hq st.1 st.2 hreach (env.idOf key.toBytes)).1 with h | ⟨k, v', h⟩
    · rw [StateStore.get, h.2.2] at hget; cases hget
    · rw [StateStore.get, h.2.2] at hget
      cases hget
      exact ⟨k, h⟩
  obtain ⟨k, hst⟩ := hst
  obtain ⟨pre, o, post, st1, ho, -, hw, hid, -⟩ :=
    C20_history env hq cfg sps s0 _ st hc ((run_eq env tenv.K ops _ _).mp hr) _ k v hst
  have hmem : o ∈ ops.flatMap (opsOf tenv.K) := by rw [ho]; simp
  obtain ⟨op, hop, ho'⟩ := List.mem_flatMap.mp hmem
  obtain ⟨key', bs, hconv, htb, hp⟩ := writes_opsOf ho' hw
  obtain ⟨n, hn, rfl⟩ := (convert_iff _ _ _ _).mp hconv
  by_cases he : key' = key
  · subst he
    exact Or.inl ⟨carries_valid hn, op, hop, bs, n, hp, hn, rfl⟩
  · exact Or.inr ⟨op, hop, key', bs, hp, he, by rw [htb, hid]⟩

/-- Content accepted as canonical is never refused, except for the radius; after it was put, `get`
returns the node or code it carries, unless the key was there before or the capacity is exceeded. -/
theorem C56_validated (tenv : Trie.Env) (env : Store.Env) (hq : Sql env) (cfg : Config) (s : Store)
    (hr : Reachable env (cfg, s)) (sps : List Speed) (key : ContentKey.State) (bs : Bytes)
    (hv : validateContent tenv key bs = some .canonicallyValid)
    (hd : xorDistance cfg.node (env.idOf key.toBytes) ≤ s.radius) :
    ∃ s' n, StateStore.put env tenv.K cfg sps s key bs = .ok (s', []) ∧ Carries tenv.K key bs n ∧
      (StateStore.get env s key = none → s.usage cfg + (32 + key.toBytes.length +
        (retrieved key n).length) + cfg.extra ≤ cfg.capacity →
        StateStore.get env s' key = some (retrieved key n)) ∧
      (∀ w, StateStore.get env s key = some w → s.usage cfg + (32 + key.toBytes.length +
        (retrieved key n).length) + cfg.extra ≤ cfg.capacity →
        StateStore.get env s' key = some w) := by
  obtain ⟨v, hdec, hb, hs, hcan⟩ := C37_hash tenv key bs _ hv (by decide)
  obtain ⟨n, hn, hk⟩ := Option.map_eq_some_iff.mp hs
  have hcar : Carries tenv.K key bs n :=
    ⟨v, hb, (C51_state_canonical key bs v hdec).1, hcan.mp rfl, hn, hk⟩
  have hput := C56_put env hq tenv.K cfg s hr sps key bs
  obtain ⟨⟨s', d⟩, hok⟩ := hput.1.mpr ⟨⟨n, hcar⟩, hd⟩
  obtain ⟨rfl, m, dropped, hm, hins⟩ := hput.2 s' d hok
  obtain rfl := carries_unique hcar hm
  have hi := (C20_insert env hq cfg s s' hr sps _ _ dropped hins).2 (env.idOf key.toBytes)
  refine ⟨s', n, hok, hcar, ?_, ?_⟩
  · intro hnone hcap
    rcases (C20_lookup env hq cfg s hr (env.idOf key.toBytes)).1 with h | ⟨k, w, h⟩
    · rcases hi key.toBytes (retrieved key n) (Or.inr ⟨h, rfl, rfl, rfl⟩) with h' | ⟨-, h', -⟩
      · exact h'.2.2
      · unfold contentSize at h'; omega
    · rw [StateStore.get, h.2.2] at hnone; cases hnone
  · intro w hw hcap
    rcases (C20_lookup env hq cfg s hr (env.idOf key.toBytes)).1 with h | ⟨k, w', h⟩
    · rw [StateStore.get, h.2.2] at hw; cases hw
    · rw [StateStore.get, h.2.2] at hw
      cases hw
      rcases hi k w (Or.inl h) with h' | ⟨-, h', -⟩
      · exact h'.2.2
      · unfold contentSize at h'; omega

/-- Valid content without proof, as it is retrieved from other nodes, is refused. -/
theorem C56_without_proof (tenv : Trie.Env) (env : Store.Env) (cfg : Config) (s : Store)
    (sps : List Speed) (key : ContentKey.State) (bs : Bytes)
    (hv : validateContent tenv key bs = some .valid) :
    StateStore.put env tenv.K cfg sps s key bs = .error .invalidData := by
  obtain ⟨v, hdec, hb, -, hcan⟩ := C37_hash tenv key bs _ hv (by decide)
  have hp : hasProof v = false := by
    cases h : hasProof v with
    | false => rfl
    | true => exact absurd (hcan.mpr h) (by decide)
  unfold StateStore.put convert
  rw [hdec]
  cases hb <;> first | rfl | cases hp

/-- The answer to whether content should be stored: not when every `put` under the key is refused; already
stored when `get` returns something; otherwise it can be stored. -/
theorem C56_should_store (env : Store.Env) (hq : Sql env) (K : Bytes → Id) (cfg : Config) (s : Store)
    (hr : Reachable env (cfg, s)) (key : ContentKey.State) :
    (shouldStore env cfg s key = .notWithinRadius ↔
      s.radius < xorDistance cfg.node (env.idOf key.toBytes)) ∧
    (shouldStore env cfg s key = .alreadyStored ↔
      xorDistance cfg.node (env.idOf key.toBytes) ≤ s.radius ∧ ∃ v, StateStore.get env s key = some v) ∧
    (shouldStore env cfg s key = .store ↔
      xorDistance cfg.node (env.idOf key.toBytes) ≤ s.radius ∧ StateStore.get env s key = none) ∧
    (shouldStore env cfg s key = .notWithinRadius → ∀ sps bs r,
      StateStore.put env K cfg sps s key bs ≠ .ok r) ∧
    (shouldStore env cfg s key ≠ .notWithinRadius → ∀ sps bs n, Carries K key bs n →
      ∃ r, StateStore.put env K cfg sps s key bs = .ok r) := by
  have hnw : shouldStore env cfg s key = .notWithinRadius ↔
      s.radius < xorDistance cfg.node (env.idOf key.toBytes) := by
    unfold shouldStore
    by_cases h : s.radius < distance cfg (env.idOf key.toBytes)
    · rw [if_pos h]; exact ⟨fun _ => h, fun _ => rfl⟩
    · rw [if_neg h]
      constructor
      · intro h'; split at h' <;> cases h'
      · intro h'; exact absurd h' h
  refine ⟨hnw, ?_, ?_, ?_, ?_⟩
  · unfold shouldStore
    by_cases h : s.radius < distance cfg (env.idOf key.toBytes)
    · rw [if_pos h]
      constructor
      · intro h'; cases h'
      · rintro ⟨h', -⟩; unfold distance at h; omega
    · rw [if_neg h]
      rcases (C20_lookup env hq cfg s hr (env.idOf key.toBytes)).1 with ha | ⟨k, v, hs⟩
      · rw [ha.1]; simp [StateStore.get, ha.2.2]
      · rw [hs.1]
        simp only [if_true, true_iff]
        exact ⟨by unfold distance at h; omega, v, hs.2.2⟩
  · unfold shouldStore
    by_cases h : s.radius < distance cfg (env.idOf key.toBytes)
    · rw [if_pos h]
      constructor
      · intro h'; cases h'
      · rintro ⟨h', -⟩; unfold distance at h; omega
    · rw [if_neg h]
      rcases (C20_lookup env hq cfg s hr (env.idOf key.toBytes)).1 with ha | ⟨k, v, hs⟩
      · rw [ha.1]
        simp only [Bool.false_eq_true, if_false, true_iff]
        exact ⟨by unfold distance at h; omega, ha.2.2⟩
      · rw [hs.1]; simp [StateStore.get, hs.2.2]
  · intro h sps bs r hp
    have := ((C56_put env hq K cfg s hr sps key bs).1.mp ⟨r, hp⟩).2
    have := hnw.mp h
    omega
  · intro h sps bs n hn
    refine (C56_put env hq K cfg s hr sps key bs).1.mpr ⟨⟨n, hn⟩, ?_⟩
    exact Nat.le_of_not_lt fun hlt => h (hnw.mpr hlt)

namespace StateStoreExample
open StateContentExample

def senv : Store.Env := StoreExample.env
example : Sql senv := StoreExample.sql
def cfg : Config := ⟨0, 10000, 2 ^ 256 - 1, 500⟩
def start : Store := ⟨[], 2 ^ 256 - 1, 100, 0, 0⟩
def nodeKey : ContentKey.State := .accountTrieNode [2] (TrieExample.K [2])
def codeKey : ContentKey.State := .bytecode TrieExample.addr 4

theorem started : create senv cfg [] [] = .ok start := by rfl

-- puts of a node and of a code, a refused retrieved form and a restart
def ops : List StateStore.Op :=
  [.put [] nodeKey value.encode, .put [] codeKey (Value.bytecode [0, 4]).encode, .restart [] cfg []]

example : ValidStateKey nodeKey := by
  refine ⟨by decide, by decide⟩
example : Carries TrieExample.env.K nodeKey value.encode [2] :=
  ⟨value, .account _ _ _ _ ⟨by decide, by decide⟩, rfl, rfl, rfl, rfl⟩
example : (StateStore.run senv TrieExample.env.K (cfg, start) ops).map
    (fun st => (StateStore.get senv st.2 nodeKey, StateStore.get senv st.2 codeKey)) =
    .ok (some (Value.trieNode [2]).encode, none) := by decide +kernel
example : StateStore.put senv TrieExample.env.K cfg [] start codeKey (Value.bytecode [0, 4]).encode =
    .error .invalidData := by decide +kernel
example : (StateStore.put senv TrieExample.env.K cfg [] start codeKey code.encode).map
    (fun r => StateStore.get senv r.1 codeKey) = .ok (some (Value.bytecode [0, 4]).encode) := by
  decide +kernel
example : shouldStore senv cfg start codeKey = .store := by decide +kernel
example : shouldStore senv cfg { start with radius := 0 } nodeKey = .notWithinRadius := by decide +kernel

end StateStoreExample

end Verif.Props
