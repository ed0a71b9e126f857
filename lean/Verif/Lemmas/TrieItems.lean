import Verif.Lemmas.TrieSnapshot

namespace Verif.TrieWalker
open Verif.Trie Verif.StateContent Verif.Props

/-! ## Content of a proof -/

theorem encoded_eq {q : Proof} (hl : q.proof.length ≤ 65) (hn : ∀ x ∈ q.proof, x.length ≤ 1024) : q.encoded = q.proof := by
  unfold Proof.encoded
  have : q.proof.map (List.take maxNode) = q.proof := by
    rw [List.map_congr_left (f := List.take maxNode) (g := id) fun x hx => List.take_of_length_le (hn x hx)]
    simp
  rw [this]
  exact List.take_of_length_le hl

theorem tryFromUnpacked_nibble {p : List UInt8} (hl : p.length ≤ 64) (hn : Nibble p) : Nibbles.tryFromUnpacked p = some p :=
  Nibbles.tryFromUnpacked_eq_some.mpr ⟨rfl, hl, fun n h => by have := hn n h; omega⟩

theorem accept {env : Env} {key : ContentKey.State} {v : Value} (hb : Belongs key v)
    (h : validateValue env key v = .ok .canonicallyValid) :
    validateContent env key v.encode = some .canonicallyValid := by
  unfold validateContent
  rw [C51_state_roundtrip key v hb]
  simp only [h]

/-- A proof of a walk whose parts fit into the content types. -/
structure Fit (q : Proof) : Prop where
  path : q.path.length ≤ 64
  nibble : Nibble q.path
  length : q.proof.length ≤ 65
  nodes : ∀ x ∈ q.proof, x.length ≤ 1024

theorem Fit.encoded {q : Proof} (h : Fit q) : q.encoded = q.proof := encoded_eq h.length h.nodes

theorem Fit.proof {q : Proof} (h : Fit q) : ProofFits q.encoded := by
  rw [h.encoded]; exact ⟨h.length, h.nodes⟩

theorem Good.validates_none {env : Env} {root : Id} {q : Proof} (h : Good env root q) {b : Bytes}
    (hb : q.proof.getLast? = some b) : validateNodeTrieProof env none (env.K b) q.path q.proof = .ok () := by
  obtain ⟨last, h1, h2⟩ := h.validates
  obtain ⟨first, rest, _, h3, h4, _⟩ := h
  rw [hb] at h1
  cases h1
  rw [h3, (C36_no_root env (env.K b) 0 q.path first rest).1, h4, ← h3]
  exact h2

theorem account_item {env : Env} {root : Id} {q : Proof} (hg : Good env root q) (hf : Fit q) {b : Bytes}
    (hb : q.proof.getLast? = some b) (bh : Id) : accountKey env q = some (.accountTrieNode q.path (env.K b)) ∧
      validateContent env (.accountTrieNode q.path (env.K b)) (accountValue bh q).encode = some .canonicallyValid := by
  constructor
  · simp [accountKey, hb, tryFromUnpacked_nibble hf.path hf.nibble]
  · refine accept (.account _ _ _ _ hf.proof) ?_
    simp only [accountValue, validateValue, validateAccountTrieNode, hf.encoded, hg.validates_none hb, Except.map]

theorem storage_item {env : Env} {root : Id} {q s : Proof} {address : Id} {a : Account}
    (ha : validateAccountState env none address q.proof = .ok a) (hr : a.storageRoot = root) (hf : Fit q) (hg : Good env root s) (hs : Fit s)
    {b : Bytes} (hb : s.proof.getLast? = some b) (bh : Id) :
    storageKey env s address = some (.storageTrieNode address s.path (env.K b)) ∧
      validateContent env (.storageTrieNode address s.path (env.K b)) (storageValue bh q s).encode = some .canonicallyValid := by
  constructor
  · simp [storageKey, hb, tryFromUnpacked_nibble hs.path hs.nibble]
  · refine accept (.storage _ _ _ _ _ _ hs.proof hf.proof) ?_
    obtain ⟨last, h1, h2⟩ := hg.validates
    rw [hb] at h1
    cases h1
    simp only [storageValue, validateValue, validateStorageTrieNode, hf.encoded, hs.encoded, ha, hr, h2, Except.map]

theorem code_item {env : Env} {q : Proof} {address : Id} {a : Account} {c : Bytes}
    (ha : validateAccountState env none address q.proof = .ok a) (hf : Fit q) (hc : env.K c = a.codeHash)
    (hl : c.length ≤ 32768) (bh : Id) :
    validateContent env (codeKey address a.codeHash) (codeValue bh q c).encode = some .canonicallyValid := by
  have e : c.take maxCode = c := List.take_of_length_le hl
  refine accept (.bytecodeWithProof _ _ _ _ _ (by rw [e]; exact hl) hf.proof) ?_
  simp only [codeKey, codeValue, validateValue, validateBytecode, e, hc, hf.encoded, ha]
  simp

theorem Good.account {env : Env} {root : Id} {q : Proof} (h : Good env root q) {b : Bytes} {key : List UInt8} {v : Bytes}
    {a : Account} {address : Id} (hb : q.proof.getLast? = some b) (hd : env.decode b = some (.leaf (key ++ [16]) v))
    (hk : key ≠ []) (hv : env.decodeAccount v = some a) (hadr : hexDigits address = q.path ++ key) :
    validateAccountState env none address q.proof = .ok a := by
  obtain ⟨first, rest, last, h1, h2, h3, h4⟩ := h
  rw [hb] at h3
  cases h3
  have := h4 key
  rw [← hadr, ← unpack_hash] at this
  simp only [h1, validateAccountState, validateTrieProof, this, valueAt, hd, Node.traverse]
  simp [hk, hv]

theorem packRight_even : ∀ (p : List UInt8), p.length % 2 = 0 → packRight p = Nibbles.packAll p
  | [], _ => rfl
  | [_], h => by simp at h
  | a :: b :: p, h => by
    simp only [packRight, Nibbles.packAll, Nibbles.packPair]
    rw [packRight_even p (by simp at h; omega)]

theorem addressHash_eq {p : List UInt8} (hl : p.length = 64) (hn : Nibble p) :
    ∃ h, addressHash p = some h ∧ hexDigits h = p := by
  have hlen : (packRight p).length = 32 := by rw [packRight_length]; omega
  refine ⟨decodeHash (packRight p), ?_, ?_⟩
  · unfold addressHash padded decodeHash
    rw [if_neg (by omega), if_neg (by omega), hlen]
    simp
  · rw [← unpack_hash, bytes_decodeHash hlen, packRight_even p (by omega)]
    exact Nibbles.unpackAll_packAll p (by omega) fun n h => by have := hn n h; omega

theorem hexDigits_inj {a b : Id} (h : hexDigits a = hexDigits b) : a = b := by
  rw [← unpack_hash, ← unpack_hash] at h
  have := congrArg Nibbles.packAll h
  rw [Nibbles.packAll_unpackAll, Nibbles.packAll_unpackAll] at this
  exact Id.bytes_injective this

/-! ## Items of a snapshot -/

variable {env : Env} {empty : Empty} {src : Source} {root : Id}

/-- The keys of the items of one node of the account trie. -/
def OfNode (s : State env empty src root) (q : Proof) (k : ContentKey.State) : Prop :=
  (∃ b, q.proof.getLast? = some b ∧ k = .accountTrieNode q.path (env.K b)) ∨
  ∃ b key v a address, q.proof.getLast? = some b ∧ env.decode b = some (.leaf (key ++ [16]) v) ∧
    hexDigits address = q.path ++ key ∧ env.decodeAccount v = some a ∧
    ((a.codeHash ≠ empty.code ∧ k = .bytecode address a.codeHash) ∨
      (a.storageRoot ≠ empty.root ∧ ∃ p b', StoredAt env (s.storageNodes address) (.hash a.storageRoot) p b' ∧
        k = .storageTrieNode address p (env.K b')))

/-- Items that are accepted, with different keys. -/
structure Sound (env : Env) (items : List Item) : Prop where
  valid : ∀ i ∈ items, validateContent env i.1 i.2.encode = some .canonicallyValid
  nodup : (items.map (·.1)).Nodup

theorem walk_fit {present nodes : List Bytes} {filter : Option Filter} {out : List Proof} (hw : Walk env present nodes root filter out)
    (hs : ∀ b ∈ nodes, b.length ≤ 1024) : ∀ q ∈ out, Fit q := by
  intro q hq
  obtain ⟨h1, h2, h3, h4⟩ := hw.size q hq
  exact ⟨h1, h2, h3, fun x hx => hs x (h4 x hx)⟩

theorem paths_nodup {out : List Proof} (h : out.Pairwise fun a b => a.path < b.path) {f : Proof → ContentKey.State}
    (hf : ∀ a b, f a = f b → a.path = b.path) : (out.map f).Nodup := by
  rw [List.nodup_iff_pairwise_ne, List.pairwise_map]
  refine h.imp fun {a b} hab e => ?_
  rw [hf a b e] at hab
  exact List.lt_irrefl _ hab

/-- The content of the proofs of a walk over the storage of an account. -/
theorem walk_items {present nodes : List Bytes} {r : Id} {out : List Proof} (h3 : Walk env present nodes r none out) {address : Id}
    (hs : ∀ b ∈ nodes, b.length ≤ 1024) {q : Proof} {a : Account}
    (ha : validateAccountState env none address q.proof = .ok a) (hr : a.storageRoot = r) (hf : Fit q) (bh : Id) :
    ∃ items, (out.mapM fun p => (storageKey env p address).map fun k => (k, storageValue bh q p)) = some items ∧ Sound env items ∧
      ∀ k, k ∈ items.map (·.1) ↔ ∃ p b, StoredAt env present (.hash r) p b ∧ k = .storageTrieNode address p (env.K b) := by
  have hfit := walk_fit h3 hs
  have hit : ∀ p, p ∈ out → ∃ k, storageKey env p address = some k ∧
      validateContent env k (storageValue bh q p).encode = some .canonicallyValid ∧
      ∃ b, p.proof.getLast? = some b ∧ k = .storageTrieNode address p.path (env.K b) := by
    intro p hp
    obtain ⟨b, hb⟩ := h3.last p hp
    obtain ⟨e1, e2⟩ := storage_item ha hr hf (h3.good p hp) (hfit p hp) hb bh
    exact ⟨_, e1, e2, b, hb, rfl⟩
  let g : Proof → Item := fun p => ((storageKey env p address).getD (.bytecode 0 0), storageValue bh q p)
  have hgk : ∀ p ∈ out, storageKey env p address = some (g p).1 := by
    intro p hp
    obtain ⟨k, e, _⟩ := hit p hp
    simp [g, e]
  have hm : (out.mapM fun p => (storageKey env p address).map fun k => (k, storageValue bh q p)) = some (out.map g) :=
    mapM_some_map _ fun p hp => by rw [hgk p hp]; rfl
  refine ⟨out.map g, hm, ⟨?_, ?_⟩, fun k => ?_⟩
  · intro i hi
    obtain ⟨p, hp, rfl⟩ := List.mem_map.mp hi
    obtain ⟨k, e1, e2, _⟩ := hit p hp
    rw [hgk p hp] at e1
    cases e1
    exact e2
  · rw [List.map_map, List.nodup_iff_pairwise_ne, List.pairwise_map]
    refine h3.ordered.imp_of_mem fun {x y} hx hy hxy e => ?_
    obtain ⟨k, e1, _, b, _, e2⟩ := hit x hx
    obtain ⟨k', e1', _, b', _, e2'⟩ := hit y hy
    rw [hgk x hx] at e1
    rw [hgk y hy] at e1'
    cases e1
    cases e1'
    simp only [Function.comp] at e
    rw [e2, e2'] at e
    simp only [ContentKey.State.storageTrieNode.injEq] at e
    rw [e.2.1] at hxy
    exact List.lt_irrefl _ hxy
  · rw [List.map_map, List.mem_map]
    constructor
    · rintro ⟨p, hp, rfl⟩
      obtain ⟨k, e1, _, b, hb, e2⟩ := hit p hp
      rw [hgk p hp] at e1
      cases e1
      exact ⟨p.path, b, ((h3.exact p.path b).mp ⟨p, hp, rfl, hb⟩).1, e2⟩
    · rintro ⟨p, b, hst, rfl⟩
      obtain ⟨x, hx, rfl, hb⟩ := (h3.exact p b).mpr ⟨hst, fun f hf => by cases hf⟩
      refine ⟨x, hx, ?_⟩
      obtain ⟨k, e1, _, b', hb', e2⟩ := hit x hx
      rw [hgk x hx] at e1
      cases e1
      rw [hb] at hb'
      cases hb'
      exact e2

/-- The storage of an account. -/
theorem storage_items {nodes : List Bytes} {r : Id} {t : PTrie} (hg : Genuine env nodes r t) {address : Id}
    (hdb : Has env (src.storage address) nodes) (hs : ∀ b ∈ nodes, b.length ≤ 1024) {q : Proof} {a : Account}
    (ha : validateAccountState env none address q.proof = .ok a) (hr : a.storageRoot = r) (hf : Fit q)
    (hne : r ≠ empty.root) (bh : Id) :
    ∃ n items, (∀ m, n ≤ m → storageItems env empty src bh m q address r = some items) ∧ Sound env items ∧
      ∀ k, k ∈ items.map (·.1) ↔ ∃ p b, StoredAt env nodes (.hash r) p b ∧ k = .storageTrieNode address p (env.K b) := by
  obtain ⟨w, out, h1, ⟨n, h2⟩, h3⟩ := full_walk hg hdb .none
  obtain ⟨items, hm, h4, h5⟩ := walk_items h3 hs ha hr hf bh
  refine ⟨n, items, fun m hm' => ?_, h4, h5⟩
  unfold storageItems
  rw [if_neg hne, h1]
  simp only [h2 m hm']
  exact hm

theorem dropLast_snoc (key : List UInt8) : (key ++ [16]).dropLast = key := by simp

/-- The items of one node of the account trie. -/
theorem node_items (s : State env empty src root) {filter : Option Filter} {out : List Proof}
    (hw : Walk env s.nodes s.nodes root filter out) (bh : Id) (q : Proof) (hq : q ∈ out) :
    ∃ n items, (∀ m, n ≤ m → nodeItems env empty src bh m q = some items) ∧ Sound env items ∧
      ∀ k, k ∈ items.map (·.1) ↔ OfNode s q k := by
  obtain ⟨b, hb⟩ := hw.last q hq
  have hfit := walk_fit hw s.small q hq
  have hgood := hw.good q hq
  obtain ⟨hkey, hval⟩ := account_item hgood hfit hb bh
  obtain ⟨hst, _⟩ := (hw.exact q.path b).mp ⟨q, hq, rfl, hb⟩
  obtain ⟨hbn, n', t', d', h1, h2, h3, h4, h5, h6, h7⟩ := stored_sub s.has s.genuine.commits s.genuine.keys s.noEmptyKeys hst
  have single : (∀ key v, n' ≠ .leaf (key ++ [16]) v) → (∀ m, nodeItems env empty src bh m q =
      some [(.accountTrieNode q.path (env.K b), accountValue bh q)]) →
      ∃ n items, (∀ m, n ≤ m → nodeItems env empty src bh m q = some items) ∧ Sound env items ∧
      ∀ k, k ∈ items.map (·.1) ↔ OfNode s q k := by
    intro hno hit
    refine ⟨0, _, fun m _ => hit m, ⟨?_, by simp⟩, fun k => ?_⟩
    · intro i hi
      simp only [List.mem_singleton] at hi
      subst hi; exact hval
    · simp only [List.map_cons, List.map_nil, List.mem_singleton]
      constructor
      · rintro rfl; exact .inl ⟨b, hb, rfl⟩
      · rintro (⟨b', hb', rfl⟩ | ⟨b', key, v, a, address, hb', hd, _⟩)
        · rw [hb] at hb'; cases hb'; rfl
        · rw [hb] at hb'; cases hb'
          rw [h1] at hd; cases hd
          exact absurd rfl (hno key v)
  have hsto := s.genuine.stored b hbn n' h1
  cases h2 with
  | empty => cases hsto
  | hash => cases hsto
  | extension pre n t hr =>
    exact single (fun _ _ e => by cases e) fun m => by simp [nodeItems, hkey, hb, h1]
  | branch ns ts v hr =>
    exact single (fun _ _ e => by cases e) fun m => by simp [nodeItems, hkey, hb, h1]
  | leaf key v =>
    cases h3 with
    | leaf _ _ hkn =>
    cases h4 with
    | leaf _ _ hkne =>
    have hlook : s.trie.lookup (q.path ++ key) = some v := by
      rw [h7]; simp [PTrie.lookup]
    obtain ⟨address, had, hhex⟩ := addressHash_eq (p := q.path ++ key) (by simp; omega) (nibble_append h6 hkn)
    cases hacc : env.decodeAccount v with
    | none => exact absurd hacc (s.accounts _ _ hlook)
    | some a =>
      have hstate := hgood.account hb h1 hkne hacc hhex
      rw [← hhex] at hlook
      -- the code
      have hcode : ∃ items, codeItems empty src bh q address a.codeHash = some items ∧ Sound env items ∧
          ∀ k, k ∈ items.map (·.1) ↔ a.codeHash ≠ empty.code ∧ k = .bytecode address a.codeHash := by
        by_cases hc : a.codeHash = empty.code
        · exact ⟨[], by simp [codeItems, hc], ⟨fun _ h => (nomatch h), by simp⟩, by simp [hc]⟩
        · obtain ⟨c, c1, c2, c3⟩ := s.code _ v a hlook hacc hc
          refine ⟨[(codeKey address a.codeHash, codeValue bh q c)], by simp [codeItems, hc, c1], ⟨?_, by simp⟩, ?_⟩
          · intro i hi
            simp only [List.mem_singleton] at hi
            subst hi
            exact code_item hstate hfit c2 c3 bh
          · intro k; simp [hc, codeKey]
      have hstor : ∃ n items, (∀ m, n ≤ m → storageItems env empty src bh m q address a.storageRoot = some items) ∧
          Sound env items ∧ ∀ k, k ∈ items.map (·.1) ↔ a.storageRoot ≠ empty.root ∧
            ∃ p b, StoredAt env (s.storageNodes address) (.hash a.storageRoot) p b ∧ k = .storageTrieNode address p (env.K b) := by
        by_cases hc : a.storageRoot = empty.root
        · exact ⟨0, [], fun m _ => by simp [storageItems, hc], ⟨fun _ h => (nomatch h), by simp⟩, by simp [hc]⟩
        · obtain ⟨⟨t, c1⟩, c2, c3⟩ := s.storage address v a hlook hacc hc
          obtain ⟨n, items, c4, c5, c6⟩ := storage_items (empty := empty) c1 c2 c3 hstate rfl hfit hc bh
          exact ⟨n, items, c4, c5, fun k => by rw [c6]; simp [hc]⟩
      obtain ⟨code, e1, e2, e3⟩ := hcode
      obtain ⟨n, stor, e4, e5, e6⟩ := hstor
      refine ⟨n, (.accountTrieNode q.path (env.K b), accountValue bh q) :: (code ++ stor), fun m hm => ?_, ⟨?_, ?_⟩, ?_⟩
      · have hleaf : leafAccount env q (key ++ [16]) v = some (address, a) := by
          simp only [leafAccount, hacc, dropLast_snoc, had, Option.map_some]
        simp only [nodeItems, hkey, hb, Option.bind_some, h1, hleaf, e1, e4 m hm]
      · intro i hi
        rcases List.mem_cons.mp hi with rfl | hi
        · exact hval
        · rcases List.mem_append.mp hi with hi | hi
          · exact e2.valid i hi
          · exact e5.valid i hi
      · rw [List.map_cons, List.map_append, List.nodup_cons, List.nodup_append]
        refine ⟨?_, e2.nodup, e5.nodup, ?_⟩
        · rw [List.mem_append, e3, e6]
          rintro (⟨_, h⟩ | ⟨_, _, _, _, h⟩) <;> cases h
        · intro x hx y hy e
          rw [e3] at hx
          rw [e6] at hy
          obtain ⟨_, rfl⟩ := hx
          obtain ⟨_, _, _, _, rfl⟩ := hy
          cases e
      · intro k
        rw [List.map_cons, List.map_append, List.mem_cons, List.mem_append, e3, e6]
        constructor
        · rintro (rfl | ⟨c1, rfl⟩ | ⟨c1, p, b', c2, rfl⟩)
          · exact .inl ⟨b, hb, rfl⟩
          · exact .inr ⟨b, key, v, a, address, hb, h1, hhex, hacc, .inl ⟨c1, rfl⟩⟩
          · exact .inr ⟨b, key, v, a, address, hb, h1, hhex, hacc, .inr ⟨c1, p, b', c2, rfl⟩⟩
        · rintro (⟨b', hb', rfl⟩ | ⟨b', key', v', a', address', hb', hd', hh', ha', hk'⟩)
          · rw [hb] at hb'; cases hb'; exact .inl rfl
          · rw [hb] at hb'; cases hb'
            rw [h1] at hd'
            simp only [Option.some.injEq, Node.leaf.injEq] at hd'
            obtain ⟨hk1, rfl⟩ := hd'
            have hkk : key = key' := by
              have := congrArg List.dropLast hk1
              simpa using this
            subst hkk
            rw [hacc] at ha'
            cases ha'
            obtain rfl : address = address' := hexDigits_inj (hhex.trans hh'.symm)
            exact .inr hk'

theorem bound_exists {α : Type} (f : α → Nat) : ∀ l : List α, ∃ N, ∀ q ∈ l, f q ≤ N
  | [] => ⟨0, fun _ hq => (nomatch hq)⟩
  | a :: l => by
    obtain ⟨N, h⟩ := bound_exists f l
    refine ⟨max (f a) N, fun q hq => ?_⟩
    rcases List.mem_cons.mp hq with rfl | hq
    · exact Nat.le_max_left _ _
    · exact Nat.le_trans (h q hq) (Nat.le_max_right _ _)

theorem choose_max {α β : Type} [Inhabited β] (l : List α) (P : α → Nat → β → Prop) (h : ∀ q, q ∈ l → ∃ n b, P q n b) :
    ∃ (g : α → β) (N : Nat), ∀ q ∈ l, ∃ n, n ≤ N ∧ P q n (g q) := by
  have h' : ∀ q, ∃ r : Nat × β, q ∈ l → P q r.1 r.2 := by
    intro q
    by_cases hq : q ∈ l
    · obtain ⟨n, b, hp⟩ := h q hq
      exact ⟨(n, b), fun _ => hp⟩
    · exact ⟨(0, default), fun hq' => absurd hq' hq⟩
  obtain ⟨f, hf⟩ := Classical.axiomOfChoice h'
  obtain ⟨N, hN⟩ := bound_exists (fun q => (f q).1) l
  exact ⟨fun q => (f q).2, N, fun q hq => ⟨(f q).1, hN q hq, hf q hq⟩⟩

/-- The address of a leaf. -/
theorem ofNode_unique (s : State env empty src root) {filter : Option Filter} {out : List Proof}
    (hw : Walk env s.nodes s.nodes root filter out) {x y : Proof} (hx : x ∈ out) (hy : y ∈ out) {k : ContentKey.State}
    (h₁ : OfNode s x k) (h₂ : OfNode s y k) : x.path = y.path := by
  have leaf : ∀ {b₁ b₂ k₁ k₂ v₁ v₂ a}, x.proof.getLast? = some b₁ → y.proof.getLast? = some b₂ →
      env.decode b₁ = some (.leaf (k₁ ++ [16]) v₁) → env.decode b₂ = some (.leaf (k₂ ++ [16]) v₂) →
      hexDigits a = x.path ++ k₁ → hexDigits a = y.path ++ k₂ → x.path = y.path := by
    intro b₁ b₂ k₁ k₂ v₁ v₂ a g1 g2 d1 d2 e1 e2
    exact leaf_unique s.has s.genuine.commits ((hw.exact x.path b₁).mp ⟨x, hx, rfl, g1⟩).1
      ((hw.exact y.path b₂).mp ⟨y, hy, rfl, g2⟩).1 d1 d2 ⟨k₁, k₂, e1.symm.trans e2⟩
  rcases h₁ with ⟨b₁, _, rfl⟩ | ⟨b₁, k₁, v₁, a₁, ad₁, g1, d1, e1, _, ⟨_, rfl⟩ | ⟨_, p₁, c₁, _, rfl⟩⟩
  · rcases h₂ with ⟨b₂, _, e⟩ | ⟨b₂, k₂, v₂, a₂, ad₂, g2, d2, e2, _, ⟨_, e⟩ | ⟨_, p₂, c₂, _, e⟩⟩
    · simp only [ContentKey.State.accountTrieNode.injEq] at e
      exact e.1
    · cases e
    · cases e
  · rcases h₂ with ⟨b₂, _, e⟩ | ⟨b₂, k₂, v₂, a₂, ad₂, g2, d2, e2, _, ⟨_, e⟩ | ⟨_, p₂, c₂, _, e⟩⟩
    · cases e
    · simp only [ContentKey.State.bytecode.injEq] at e
      exact leaf g1 g2 d1 d2 e1 (e.1 ▸ e2)
    · cases e
  · rcases h₂ with ⟨b₂, _, e⟩ | ⟨b₂, k₂, v₂, a₂, ad₂, g2, d2, e2, _, ⟨_, e⟩ | ⟨_, p₂, c₂, _, e⟩⟩
    · cases e
    · cases e
    · simp only [ContentKey.State.storageTrieNode.injEq] at e
      exact leaf g1 g2 d1 d2 e1 (e.1 ▸ e2)

theorem ofNode_content (s : State env empty src root) {out : List Proof} (hw : Walk env s.nodes s.nodes root none out)
    (k : ContentKey.State) : (∃ q ∈ out, OfNode s q k) ↔ s.Content k := by
  constructor
  · rintro ⟨q, hq, ⟨b, hb, rfl⟩ | ⟨b, key, v, a, address, hb, hd, hh, ha, hk⟩⟩
    · exact .account _ _ ((hw.exact q.path b).mp ⟨q, hq, rfl, hb⟩).1
    · obtain ⟨hst, _⟩ := (hw.exact q.path b).mp ⟨q, hq, rfl, hb⟩
      obtain ⟨hbn, n', t', d', h1, h2, h3, h4, h5, h6, h7⟩ :=
        stored_sub s.has s.genuine.commits s.genuine.keys s.noEmptyKeys hst
      have hlook : s.trie.lookup (hexDigits address) = some v := by
        rw [hh, h7]
        rw [hd] at h1
        cases h1
        generalize hg : Node.leaf (key ++ [16]) v = m at h2
        cases h2 with
        | leaf key' v' =>
          simp only [Node.leaf.injEq] at hg
          have : key = key' := by simpa using congrArg List.dropLast hg.1
          simp [PTrie.lookup, this, hg.2]
        | _ => cases hg
      rcases hk with ⟨c1, rfl⟩ | ⟨c1, p, b', c2, rfl⟩
      · exact .code _ v a hlook ha c1
      · exact .storage _ v a p b' hlook ha c1 c2
  · have find : ∀ address v, s.trie.lookup (hexDigits address) = some v → ∃ q ∈ out, ∃ b key, q.proof.getLast? = some b ∧
        env.decode b = some (.leaf (key ++ [16]) v) ∧ hexDigits address = q.path ++ key := by
      intro address v hl
      rcases lookup_leaf s.sparse s.genuine.commits s.genuine.keys (.inr (.inr ⟨_, rfl⟩)) hl with e | ⟨p, key, b, c1, c2, c3⟩
      · cases e
      · obtain ⟨q, hq, rfl, hb⟩ := (hw.exact p b).mpr ⟨c1, fun f hf => by cases hf⟩
        exact ⟨q, hq, b, key, hb, c3, c2⟩
    intro h
    cases h with
    | account path b hst =>
      obtain ⟨q, hq, rfl, hb⟩ := (hw.exact path b).mpr ⟨hst, fun f hf => by cases hf⟩
      exact ⟨q, hq, .inl ⟨b, hb, rfl⟩⟩
    | code address v a hl ha hc =>
      obtain ⟨q, hq, b, key, hb, hd, hh⟩ := find address v hl
      exact ⟨q, hq, .inr ⟨b, key, v, a, address, hb, hd, hh, ha, .inl ⟨hc, rfl⟩⟩⟩
    | storage address v a path b' hl ha hc hst =>
      obtain ⟨q, hq, b, key, hb, hd, hh⟩ := find address v hl
      exact ⟨q, hq, .inr ⟨b, key, v, a, address, hb, hd, hh, ha, .inr ⟨hc, path, b', hst, rfl⟩⟩⟩

theorem snapshot_items (s : State env empty src root) (bh : Id) :
    ∃ N items, (∀ m, N ≤ m → snapshotItems env empty src bh m root = some items) ∧ Sound env items ∧
      ∀ k, k ∈ items.map (·.1) ↔ s.Content k := by
  obtain ⟨w, out, h1, ⟨n, h2⟩, h3⟩ := full_walk s.genuine s.has .none
  obtain ⟨g, N, hg⟩ := choose_max out (fun q n items => (∀ m, n ≤ m → nodeItems env empty src bh m q = some items) ∧
    Sound env items ∧ ∀ k, k ∈ items.map (·.1) ↔ OfNode s q k) fun q hq => node_items s h3 bh q hq
  refine ⟨max n N, out.flatMap g, fun m hm => ?_, ⟨?_, ?_⟩, fun k => ?_⟩
  · unfold snapshotItems
    rw [h1]
    simp only [h2 m (by omega)]
    rw [mapM_some_map (g := g) out fun q hq => ?_]
    · simp [List.flatMap_def]
    · obtain ⟨n', hn', hit, _⟩ := hg q hq
      exact hit m (by omega)
  · intro i hi
    obtain ⟨q, hq, hi⟩ := List.mem_flatMap.mp hi
    obtain ⟨_, _, _, hs, _⟩ := hg q hq
    exact hs.valid i hi
  · rw [List.map_flatMap, List.nodup_iff_pairwise_ne, List.pairwise_flatMap]
    refine ⟨fun q hq => ?_, ?_⟩
    · obtain ⟨_, _, _, hs, _⟩ := hg q hq
      exact List.nodup_iff_pairwise_ne.mp hs.nodup
    · refine h3.ordered.imp_of_mem fun {x y} hx hy hxy a ha b hb e => ?_
      subst e
      obtain ⟨_, _, _, _, hx'⟩ := hg x hx
      obtain ⟨_, _, _, _, hy'⟩ := hg y hy
      rw [ofNode_unique s h3 hx hy ((hx' _).mp ha) ((hy' _).mp hb)] at hxy
      exact List.lt_irrefl _ hxy
  · rw [List.map_flatMap, List.mem_flatMap, ← ofNode_content s h3]
    constructor
    · rintro ⟨q, hq, hk⟩
      obtain ⟨_, _, _, _, hx⟩ := hg q hq
      exact ⟨q, hq, (hx k).mp hk⟩
    · rintro ⟨q, hq, hk⟩
      obtain ⟨_, _, _, _, hx⟩ := hg q hq
      exact ⟨q, hq, (hx k).mpr hk⟩

end Verif.TrieWalker
