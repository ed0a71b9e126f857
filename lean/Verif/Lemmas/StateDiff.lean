import Verif.Lemmas.TrieItems
import Verif.Props.StateDiffSpec

namespace Verif.TrieWalker
open Verif.Trie Verif.StateContent Verif.Props

variable {env : Env} {empty : Empty} {src src₀ src₁ : Source} {root root₀ root₁ : Id}

/-! ## Stored nodes -/

theorem storedAt_mono {A B : List Bytes} (h : ∀ b ∈ A, b ∈ B) {n : Node} {p : List UInt8} {b : Bytes}
    (hs : StoredAt env A n p b) : StoredAt env B n p b := by
  induction hs with
  | here b hb => exact .here b (h b hb)
  | hash b' n path b hb' hd _ ih => exact .hash b' n path b (h b' hb') hd ih
  | extension pre n path b hp _ ih => exact .extension pre n path b hp ih
  | branch ns v i path b _ ih => exact .branch ns v i path b ih

theorem storedAt_mem {A : List Bytes} {n : Node} {p : List UInt8} {b : Bytes} (hs : StoredAt env A n p b) : b ∈ A := by
  induction hs with
  | here b hb => exact hb
  | hash _ _ _ _ _ _ _ ih => exact ih
  | extension _ _ _ _ _ _ ih => exact ih
  | branch _ _ _ _ _ _ ih => exact ih

theorem storedAt_trans {A : List Bytes} {n : Node} {p r : List UInt8} {b c : Bytes} (h₁ : StoredAt env A n p c)
    (h₂ : StoredAt env A (.hash (env.K c)) r b) : StoredAt env A n (p ++ r) b := by
  induction h₁ with
  | here c hc => exact h₂
  | hash b' n path c hb' hd _ ih => exact .hash b' n _ b hb' hd (ih h₂)
  | extension pre n path c hp _ ih => rw [List.append_assoc]; exact .extension pre n _ b hp (ih h₂)
  | branch ns v i path c _ ih => exact .branch ns v i _ b (ih h₂)

/-- What is stored below a node in one set of nodes is stored below it in another that represents the node. -/
theorem storedAt_transfer {A B : List Bytes} (hc : ¬ ByteCollision env.K A B) {n : Node} {t : PTrie} (hr : Rep env A n t) :
    ∀ {p : List UInt8} {b : Bytes}, StoredAt env B n p b → StoredAt env A n p b := by
  have inj : ∀ {a b}, a ∈ A → b ∈ B → env.K a = env.K b → a = b := fun {a b} ha hb e =>
    Classical.byContradiction fun hne => hc ⟨a, ha, b, hb, hne, e⟩
  induction hr with
  | empty => intro p b h; cases h
  | leaf key v => intro p b h; cases h
  | extension pre n t _ ih =>
    intro p b h
    cases h with
    | extension _ _ path _ hp h => exact .extension pre n path b hp (ih h)
  | branch ns ts v _ ih =>
    intro p b h
    cases h with
    | branch _ _ i path _ h => exact .branch ns v i path b (ih i h)
  | hash b' n t hb hd _ ih =>
    intro p b h
    generalize hk : env.K b' = k at h
    cases h with
    | here _ hb' =>
      obtain rfl := inj hb hb' hk
      exact .here _ hb
    | hash b'' n' path _ hb'' hd' h =>
      obtain rfl := inj hb hb'' hk
      rw [hd] at hd'
      cases hd'
      exact .hash b' n _ b hb hd (ih h)

/-- If everything that is new is present, and what is below something old is old, then a new node can be reached through
present nodes. -/
theorem reach {nodes present : List Bytes} {Old : List UInt8 → Bytes → Prop}
    (hclosed : ∀ q c r b, c ∈ nodes → Old q c → StoredAt env nodes (.hash (env.K c)) r b → Old (q ++ r) b) {n : Node} {p : List UInt8}
    {b : Bytes} (hs : StoredAt env nodes n p b) : ∀ (pre : List UInt8), ¬ Old (pre ++ p) b →
      (∀ q c, StoredAt env nodes n q c → ¬ Old (pre ++ q) c → c ∈ present) → StoredAt env present n p b := by
  induction hs with
  | here b hb =>
    intro pre hn hp
    exact .here b (hp [] b (.here b hb) hn)
  | hash b' n path b hb' hd hs ih =>
    intro pre hn hp
    have hb'' : ¬ Old pre b' := fun ho => hn (hclosed pre b' path b hb' ho (.hash b' n path b hb' hd hs))
    refine .hash b' n path b (hp [] b' (.here b' hb') (by simpa using hb'')) hd (ih pre hn fun q c hq => ?_)
    exact hp q c (.hash b' n q c hb' hd hq)
  | extension pr n path b hne hs ih =>
    intro pre hn hp
    refine .extension pr n path b hne (ih (pre ++ pr) (by simpa using hn) fun q c hq hn' => ?_)
    exact hp (pr ++ q) c (.extension pr n q c hne hq) (by simpa using hn')
  | branch ns v i path b hs ih =>
    intro pre hn hp
    refine .branch ns v i path b (ih (pre ++ [UInt8.ofNat i.val]) (by simpa using hn) fun q c hq hn' => ?_)
    exact hp (UInt8.ofNat i.val :: q) c (.branch ns v i q c hq) (by simpa using hn')

/-- Nodes of a represented trie that are stored are represented. -/
theorem storedAt_rep {A : List Bytes} {db : Db} (hdb : Has env db A) {n : Node} {t : PTrie} (hr : Rep env A n t) :
    ∀ {p : List UInt8} {b : Bytes}, StoredAt env A n p b → ∃ t', Rep env A (.hash (env.K b)) t' := by
  induction hr with
  | empty => intro p b h; cases h
  | leaf key v => intro p b h; cases h
  | extension pre n t _ ih =>
    intro p b h
    cases h with
    | extension _ _ path _ hp h => exact ih h
  | branch ns ts v _ ih =>
    intro p b h
    cases h with
    | branch _ _ i path _ h => exact ih i h
  | hash b' n t hb hd hr ih =>
    intro p b h
    generalize hk : env.K b' = k at h
    cases h with
    | here _ hb' =>
      obtain rfl := key_inj hdb hb hb' hk
      exact ⟨t, .hash b' n t hb hd hr⟩
    | hash b'' n' path _ hb'' hd' h =>
      obtain rfl := key_inj hdb hb hb'' hk
      rw [hd] at hd'
      cases hd'
      exact ih h

theorem old_closed {A B : List Bytes} {db : Db} (hdb : Has env db A) (hc : ¬ ByteCollision env.K A B) {n : Node} {t : PTrie}
    (hr : Rep env A n t) {q r : List UInt8} {b c : Bytes} (h₁ : StoredAt env A n q c)
    (h₂ : StoredAt env B (.hash (env.K c)) r b) : StoredAt env A n (q ++ r) b := by
  obtain ⟨t', hr'⟩ := storedAt_rep hdb hr h₁
  exact storedAt_trans h₁ (storedAt_transfer hc hr' h₂)

/-- The value of a stored leaf. -/
theorem leaf_lookup (s : State env empty src root) {p key : List UInt8} {b v : Bytes}
    (hst : StoredAt env s.nodes (.hash root) p b) (hd : env.decode b = some (.leaf (key ++ [16]) v)) :
    s.trie.lookup (p ++ key) = some v := by
  obtain ⟨hbn, n', t', d', h1, h2, h3, h4, h5, h6, h7⟩ :=
    stored_sub s.has s.genuine.commits s.genuine.keys s.noEmptyKeys hst
  rw [h7]
  rw [hd] at h1
  cases h1
  generalize hg : Node.leaf (key ++ [16]) v = m at h2
  cases h2 with
  | leaf key' v' =>
    simp only [Node.leaf.injEq] at hg
    have : key = key' := by simpa using congrArg List.dropLast hg.1
    simp [PTrie.lookup, this, hg.2]
  | _ => cases hg

theorem available_sub {db : Db} {nodes : List Bytes} : ∀ b ∈ available env db nodes, b ∈ nodes := by
  intro b hb
  exact (List.mem_filter.mp hb).1

/-! ## Items of a node -/

/-- The keys of the items of one changed node of the account trie. -/
def OfDiff (s : State env empty src root) (diff : Source) (q : Proof) (k : ContentKey.State) : Prop :=
  (∃ b, q.proof.getLast? = some b ∧ k = .accountTrieNode q.path (env.K b)) ∨
  ∃ b key v a address, q.proof.getLast? = some b ∧ env.decode b = some (.leaf (key ++ [16]) v) ∧
    hexDigits address = q.path ++ key ∧ env.decodeAccount v = some a ∧
    ((a.codeHash ≠ empty.code ∧ diff.code a.codeHash ≠ none ∧ k = .bytecode address a.codeHash) ∨
      (a.storageRoot ≠ empty.root ∧ ∃ p b', StoredAt env (available env (diff.storage address) (s.storageNodes address))
        (.hash a.storageRoot) p b' ∧ k = .storageTrieNode address p (env.K b')) ∨
      (a.storageRoot = empty.root ∧ diff.storage address empty.root ≠ some none ∧
        k = .storageTrieNode address [] empty.root))

theorem diff_storage_items {nodes : List Bytes} {diff : Source} {r : Id} {t : PTrie} (hg : Genuine env nodes r t) {address : Id}
    (hdb : Answers env (diff.storage address) nodes) (hs : ∀ b ∈ nodes, b.length ≤ 1024) {q : Proof} {a : Account}
    (ha : validateAccountState env none address q.proof = .ok a) (hr : a.storageRoot = r) (hf : Fit q) (bh : Id) :
    ∃ n items, (∀ m, n ≤ m → diffStorageItems env diff bh m q address r = some items) ∧ Sound env items ∧
      ∀ k, k ∈ items.map (·.1) ↔ ∃ p b, StoredAt env (available env (diff.storage address) nodes) (.hash r) p b ∧
        k = .storageTrieNode address p (env.K b) := by
  obtain ⟨w, out, h1, ⟨n, h2⟩, h3⟩ := partial_walk hg hdb
  obtain ⟨items, hm, h4, h5⟩ := walk_items h3 hs ha hr hf bh
  refine ⟨n, items, fun m hm' => ?_, h4, h5⟩
  unfold diffStorageItems
  rw [h1]
  simp only [h2 m hm']
  exact hm

theorem empty_storage_items {diff : Source} {address : Id} {q : Proof} {a : Account}
    (ha : validateAccountState env none address q.proof = .ok a) (hr : a.storageRoot = empty.root) (hf : Fit q) (bh : Id)
    (hdb : diff.storage address empty.root = some none ∨
      ∃ b, diff.storage address empty.root = some (some b) ∧ env.K b = empty.root ∧ env.decode b = some .empty ∧ b.length ≤ 1024) :
    ∃ n items, (∀ m, n ≤ m → diffStorageItems env diff bh m q address empty.root = some items) ∧ Sound env items ∧
      ∀ k, k ∈ items.map (·.1) ↔ diff.storage address empty.root ≠ some none ∧ k = .storageTrieNode address [] empty.root := by
  rcases hdb with hdb | ⟨b, hdb, hk, hd, hl⟩
  · refine ⟨0, [], fun m _ => ?_, ⟨fun _ h => (nomatch h), by simp⟩, fun k => by simp [hdb]⟩
    unfold diffStorageItems
    simp only [Walker.newPartial, hdb]
    cases m <;> simp [Walker.all, Walker.take, Walker.next]
  · have hgood : Good env empty.root ⟨[], [b]⟩ := ⟨b, [], b, rfl, hk, rfl, fun x => by simp [follow]⟩
    have hfit : Fit ⟨[], [b]⟩ := ⟨by simp, nibble_nil, by simp, by simpa using hl⟩
    obtain ⟨e1, e2⟩ := storage_item ha hr hf hgood hfit (b := b) rfl bh
    rw [hk] at e1 e2
    refine ⟨2, [(.storageTrieNode address [] empty.root, storageValue bh q ⟨[], [b]⟩)], fun m hm => ?_, ⟨?_, by simp⟩, fun k => by simp [hdb]⟩
    · unfold diffStorageItems
      simp only [Walker.newPartial, hdb]
      obtain ⟨m, rfl⟩ : ∃ m', m = m' + 2 := ⟨m - 2, by omega⟩
      simp only [Walker.all, Walker.take, Walker.next, List.getLast?_singleton, hd, Option.map_some, if_true]
      simp [e1]
    · intro i hi
      simp only [List.mem_singleton] at hi
      subst hi
      exact e2

theorem diff_node_items {old : State env empty src₀ root₀} (s : State env empty src root) {diff : Source} (hch : Changes old s diff)
    {out : List Proof} (hw : Walk env (available env diff.trie s.nodes) s.nodes root none out) (bh : Id) (q : Proof) (hq : q ∈ out) :
    ∃ n items, (∀ m, n ≤ m → diffNodeItems env empty diff bh m q = some items) ∧ Sound env items ∧
      ∀ k, k ∈ items.map (·.1) ↔ OfDiff s diff q k := by
  obtain ⟨b, hb⟩ := hw.last q hq
  have hfit := walk_fit hw s.small q hq
  have hgood := hw.good q hq
  obtain ⟨hkey, hval⟩ := account_item hgood hfit hb bh
  have hst := storedAt_mono available_sub ((hw.exact q.path b).mp ⟨q, hq, rfl, hb⟩).1
  obtain ⟨hbn, n', t', d', h1, h2, h3, h4, h5, h6, h7⟩ := stored_sub s.has s.genuine.commits s.genuine.keys s.noEmptyKeys hst
  have single : (∀ key v, n' ≠ .leaf (key ++ [16]) v) → (∀ m, diffNodeItems env empty diff bh m q =
      some [(.accountTrieNode q.path (env.K b), accountValue bh q)]) →
      ∃ n items, (∀ m, n ≤ m → diffNodeItems env empty diff bh m q = some items) ∧ Sound env items ∧
      ∀ k, k ∈ items.map (·.1) ↔ OfDiff s diff q k := by
    intro hno hit
    refine ⟨0, _, fun m _ => hit m, ⟨?_, by simp⟩, fun k => ?_⟩
    · intro i hi
      simp only [List.mem_singleton] at hi
      subst hi; exact hval
    · simp only [List.map_cons, List.map_nil, List.mem_singleton]
      constructor
      · rintro rfl; exact .inl ⟨b, hb, rfl⟩
      · rintro (⟨b', hb', rfl⟩ | ⟨b', key, v, a, address, hb', hd, _⟩)
        · rw [hb] at hb'; cases hb'; rfl
        · rw [hb] at hb'; cases hb'
          rw [h1] at hd; cases hd
          exact absurd rfl (hno key v)
  have hsto := s.genuine.stored b hbn n' h1
  cases h2 with
  | empty => cases hsto
  | hash => cases hsto
  | extension pre n t hr =>
    exact single (fun _ _ e => by cases e) fun m => by simp [diffNodeItems, hkey, hb, h1]
  | branch ns ts v hr =>
    exact single (fun _ _ e => by cases e) fun m => by simp [diffNodeItems, hkey, hb, h1]
  | leaf key v =>
    cases h3 with
    | leaf _ _ hkn =>
    cases h4 with
    | leaf _ _ hkne =>
    have hlook : s.trie.lookup (q.path ++ key) = some v := by
      rw [h7]; simp [PTrie.lookup]
    obtain ⟨address, had, hhex⟩ := addressHash_eq (p := q.path ++ key) (by simp; omega) (nibble_append h6 hkn)
    cases hacc : env.decodeAccount v with
    | none => exact absurd hacc (s.accounts _ _ hlook)
    | some a =>
      have hstate := hgood.account hb h1 hkne hacc hhex
      rw [← hhex] at hlook
      have hcode : Sound env (diffCodeItems empty diff bh q address a.codeHash) ∧
          ∀ k, k ∈ (diffCodeItems empty diff bh q address a.codeHash).map (·.1) ↔
            a.codeHash ≠ empty.code ∧ diff.code a.codeHash ≠ none ∧ k = .bytecode address a.codeHash := by
        by_cases hc : a.codeHash = empty.code
        · have : diffCodeItems empty diff bh q address a.codeHash = [] := by simp [diffCodeItems, hc]
          rw [this]
          exact ⟨⟨fun _ h => (nomatch h), by simp⟩, by simp [hc]⟩
        · cases hn : diff.code a.codeHash with
          | none =>
            have : diffCodeItems empty diff bh q address a.codeHash = [] := by simp [diffCodeItems, hn]
            rw [this]
            exact ⟨⟨fun _ h => (nomatch h), by simp⟩, by simp⟩
          | some c =>
            have : diffCodeItems empty diff bh q address a.codeHash = [(codeKey address a.codeHash, codeValue bh q c)] := by
              simp [diffCodeItems, hc, hn]
            rw [this]
            obtain ⟨c2, c3⟩ := hch.codeGenuine _ c hn
            refine ⟨⟨?_, by simp⟩, fun k => by simp [hc, codeKey]⟩
            intro i hi
            simp only [List.mem_singleton] at hi
            subst hi
            exact code_item hstate hfit c2 c3 bh
      have hstor : ∃ n items, (∀ m, n ≤ m → diffStorageItems env diff bh m q address a.storageRoot = some items) ∧
          Sound env items ∧ ∀ k, k ∈ items.map (·.1) ↔
            (a.storageRoot ≠ empty.root ∧ ∃ p b', StoredAt env (available env (diff.storage address) (s.storageNodes address))
              (.hash a.storageRoot) p b' ∧ k = .storageTrieNode address p (env.K b')) ∨
            (a.storageRoot = empty.root ∧ diff.storage address empty.root ≠ some none ∧
              k = .storageTrieNode address [] empty.root) := by
        by_cases hc : a.storageRoot = empty.root
        · obtain ⟨n, items, c4, c5, c6⟩ := empty_storage_items hstate hc hfit bh
            (hch.emptyStorage address ⟨v, a, hlook, hacc, hc⟩)
          rw [hc]
          exact ⟨n, items, c4, c5, fun k => by rw [c6]; simp⟩
        · obtain ⟨⟨t, c1⟩, _, c3⟩ := s.storage address v a hlook hacc hc
          obtain ⟨n, items, c4, c5, c6⟩ := diff_storage_items c1 (hch.storageAnswers address v a hlook hacc hc) c3 hstate rfl hfit bh
          exact ⟨n, items, c4, c5, fun k => by rw [c6]; simp [hc]⟩
      obtain ⟨e2, e3⟩ := hcode
      obtain ⟨n, stor, e4, e5, e6⟩ := hstor
      generalize hcd : diffCodeItems empty diff bh q address a.codeHash = code at e2 e3
      refine ⟨n, (.accountTrieNode q.path (env.K b), accountValue bh q) :: (code ++ stor), fun m hm => ?_, ⟨?_, ?_⟩, ?_⟩
      · have hleaf : leafAccount env q (key ++ [16]) v = some (address, a) := by
          simp only [leafAccount, hacc, dropLast_snoc, had, Option.map_some]
        simp only [diffNodeItems, hkey, hb, Option.bind_some, h1, hleaf, hcd, e4 m hm, Option.map_some]
      · intro i hi
        rcases List.mem_cons.mp hi with rfl | hi
        · exact hval
        · rcases List.mem_append.mp hi with hi | hi
          · exact e2.valid i hi
          · exact e5.valid i hi
      · rw [List.map_cons, List.map_append, List.nodup_cons, List.nodup_append]
        refine ⟨?_, e2.nodup, e5.nodup, ?_⟩
        · rw [List.mem_append, e3, e6]
          rintro (⟨_, _, h⟩ | ⟨_, _, _, _, h⟩ | ⟨_, _, h⟩) <;> cases h
        · intro x hx y hy e
          rw [e3] at hx
          rw [e6] at hy
          obtain ⟨_, _, rfl⟩ := hx
          rcases hy with ⟨_, _, _, _, rfl⟩ | ⟨_, _, rfl⟩ <;> cases e
      · intro k
        rw [List.map_cons, List.map_append, List.mem_cons, List.mem_append, e3, e6]
        constructor
        · rintro (rfl | hk | hk)
          · exact .inl ⟨b, hb, rfl⟩
          · exact .inr ⟨b, key, v, a, address, hb, h1, hhex, hacc, .inl hk⟩
          · exact .inr ⟨b, key, v, a, address, hb, h1, hhex, hacc, .inr hk⟩
        · rintro (⟨b', hb', rfl⟩ | ⟨b', key', v', a', address', hb', hd', hh', ha', hk'⟩)
          · rw [hb] at hb'; cases hb'; exact .inl rfl
          · rw [hb] at hb'; cases hb'
            rw [h1] at hd'
            simp only [Option.some.injEq, Node.leaf.injEq] at hd'
            obtain ⟨hk1, rfl⟩ := hd'
            have hkk : key = key' := by
              have := congrArg List.dropLast hk1
              simpa using this
            subst hkk
            rw [hacc] at ha'
            cases ha'
            obtain rfl : address = address' := hexDigits_inj (hhex.trans hh'.symm)
            exact .inr hk'

/-! ## All items -/

/-- What the key of an item says about its node. -/
theorem ofDiff_near (s : State env empty src root) {diff : Source} {q : Proof} {k : ContentKey.State} (h : OfDiff s diff q k) :
    (∃ hash, k = .accountTrieNode q.path hash) ∨
    ∃ b key v address, q.proof.getLast? = some b ∧ env.decode b = some (.leaf (key ++ [16]) v) ∧
      hexDigits address = q.path ++ key ∧ ((∃ c, k = .bytecode address c) ∨ ∃ p c, k = .storageTrieNode address p c) := by
  rcases h with ⟨b, _, rfl⟩ | ⟨b, key, v, a, address, h1, h2, h3, _, h⟩
  · exact .inl ⟨_, rfl⟩
  · refine .inr ⟨b, key, v, address, h1, h2, h3, ?_⟩
    rcases h with ⟨_, _, rfl⟩ | ⟨_, p, c, _, rfl⟩ | ⟨_, _, rfl⟩
    · exact .inl ⟨_, rfl⟩
    · exact .inr ⟨_, _, rfl⟩
    · exact .inr ⟨_, _, rfl⟩

theorem ofDiff_unique (s : State env empty src root) {diff : Source} {out : List Proof}
    (hw : Walk env (available env diff.trie s.nodes) s.nodes root none out) {x y : Proof} (hx : x ∈ out) (hy : y ∈ out)
    {k : ContentKey.State} (h₁ : OfDiff s diff x k) (h₂ : OfDiff s diff y k) : x.path = y.path := by
  have leaf : ∀ {b₁ b₂ k₁ k₂ v₁ v₂ a}, x.proof.getLast? = some b₁ → y.proof.getLast? = some b₂ →
      env.decode b₁ = some (.leaf (k₁ ++ [16]) v₁) → env.decode b₂ = some (.leaf (k₂ ++ [16]) v₂) →
      hexDigits a = x.path ++ k₁ → hexDigits a = y.path ++ k₂ → x.path = y.path := by
    intro b₁ b₂ k₁ k₂ v₁ v₂ a g1 g2 d1 d2 e1 e2
    exact leaf_unique s.has s.genuine.commits (storedAt_mono available_sub ((hw.exact x.path b₁).mp ⟨x, hx, rfl, g1⟩).1)
      (storedAt_mono available_sub ((hw.exact y.path b₂).mp ⟨y, hy, rfl, g2⟩).1) d1 d2 ⟨k₁, k₂, e1.symm.trans e2⟩
  rcases ofDiff_near s h₁ with ⟨c₁, rfl⟩ | ⟨b₁, k₁, v₁, ad₁, g1, d1, e1, h₁⟩
  · rcases ofDiff_near s h₂ with ⟨c₂, e⟩ | ⟨b₂, k₂, v₂, ad₂, g2, d2, e2, ⟨_, e⟩ | ⟨_, _, e⟩⟩
    · simp only [ContentKey.State.accountTrieNode.injEq] at e
      exact e.1
    · cases e
    · cases e
  · rcases ofDiff_near s h₂ with ⟨c₂, rfl⟩ | ⟨b₂, k₂, v₂, ad₂, g2, d2, e2, h₂⟩
    · rcases h₁ with ⟨_, e⟩ | ⟨_, _, e⟩ <;> cases e
    · have : ad₁ = ad₂ := by
        rcases h₁ with ⟨_, rfl⟩ | ⟨_, _, rfl⟩ <;> rcases h₂ with ⟨_, e⟩ | ⟨_, _, e⟩
        · simp only [ContentKey.State.bytecode.injEq] at e; exact e.1
        · cases e
        · cases e
        · simp only [ContentKey.State.storageTrieNode.injEq] at e; exact e.1
      exact leaf g1 g2 d1 d2 e1 (this ▸ e2)

/-- The items of changed nodes belong to the new state, except for the empty node. -/
theorem ofDiff_content (s : State env empty src root) {diff : Source}
    {out : List Proof} (hw : Walk env (available env diff.trie s.nodes) s.nodes root none out) {k : ContentKey.State} {q : Proof}
    (hq : q ∈ out) (h : OfDiff s diff q k) :
    s.Content k ∨ ∃ address, s.EmptyStorage address ∧ k = .storageTrieNode address [] empty.root := by
  rcases h with ⟨b, hb, rfl⟩ | ⟨b, key, v, a, address, hb, hd, hh, ha, hk⟩
  · exact .inl (.account _ _ (storedAt_mono available_sub ((hw.exact q.path b).mp ⟨q, hq, rfl, hb⟩).1))
  · have hst := storedAt_mono available_sub ((hw.exact q.path b).mp ⟨q, hq, rfl, hb⟩).1
    have hlook := leaf_lookup s hst hd
    rw [← hh] at hlook
    rcases hk with ⟨c1, _, rfl⟩ | ⟨c1, p, b', c2, rfl⟩ | ⟨c1, _, rfl⟩
    · exact .inl (.code _ v a hlook ha c1)
    · exact .inl (.storage _ v a p b' hlook ha c1 (storedAt_mono available_sub c2))
    · exact .inr ⟨address, ⟨v, a, hlook, ha, c1⟩, rfl⟩

variable {old : State env empty src₀ root₀} {s : State env empty src root} {diff : Source}

theorem content_node (hap : Apart old s) {path : List UInt8} {b : Bytes} (hb : b ∈ s.nodes) :
    old.Content (.accountTrieNode path (env.K b)) ↔ StoredAt env old.nodes (.hash root₀) path b := by
  constructor
  · intro h
    generalize hk : ContentKey.State.accountTrieNode path (env.K b) = k at h
    cases h with
    | account path' b' hst =>
      simp only [ContentKey.State.accountTrieNode.injEq] at hk
      obtain ⟨rfl, e⟩ := hk
      have : b' = b := Classical.byContradiction fun hne => hap.1 ⟨b', storedAt_mem hst, b, hb, hne, e.symm⟩
      rw [← this]; exact hst
    | code => cases hk
    | storage => cases hk
  · exact fun h => .account _ _ h

theorem content_storage (hap : Apart old s) {address : Id} {path : List UInt8} {b : Bytes} (hb : b ∈ s.storageNodes address) :
    old.Content (.storageTrieNode address path (env.K b)) ↔ ∃ v a, old.trie.lookup (hexDigits address) = some v ∧
      env.decodeAccount v = some a ∧ a.storageRoot ≠ empty.root ∧
      StoredAt env (old.storageNodes address) (.hash a.storageRoot) path b := by
  constructor
  · intro h
    generalize hk : ContentKey.State.storageTrieNode address path (env.K b) = k at h
    cases h with
    | account => cases hk
    | code => cases hk
    | storage address' v a path' b' h1 h2 h3 h4 =>
      simp only [ContentKey.State.storageTrieNode.injEq] at hk
      obtain ⟨rfl, rfl, e⟩ := hk
      have : b' = b := Classical.byContradiction fun hne => hap.2 address ⟨b', storedAt_mem h4, b, hb, hne, e.symm⟩
      rw [← this]; exact ⟨v, a, h1, h2, h3, h4⟩
  · rintro ⟨v, a, h1, h2, h3, h4⟩
    exact .storage _ v a _ _ h1 h2 h3 h4

/-- A changed node can be reached through changed nodes. -/
theorem account_reach (hch : Changes old s diff) (hap : Apart old s) {path : List UInt8} {b : Bytes}
    (hst : StoredAt env s.nodes (.hash root) path b) (hnew : ¬ old.Content (.accountTrieNode path (env.K b))) :
    StoredAt env (available env diff.trie s.nodes) (.hash root) path b := by
  refine reach (Old := fun p b => StoredAt env old.nodes (.hash root₀) p b) ?_ hst [] ?_ ?_
  · intro q c r b _ h1 h2
    exact old_closed old.has hap.1 old.genuine.commits h1 h2
  · intro h
    exact hnew (.account _ _ h)
  · intro q c h1 h2
    refine mem_available.mpr ⟨storedAt_mem h1, hch.trie q c h1 ?_⟩
    rw [content_node hap (storedAt_mem h1)]
    exact h2

theorem storage_reach (hch : Changes old s diff) (hap : Apart old s) {address : Id} {v : Bytes} {a : Account} {path : List UInt8}
    {b : Bytes} (hl : s.trie.lookup (hexDigits address) = some v) (ha : env.decodeAccount v = some a)
    (hne : a.storageRoot ≠ empty.root) (hst : StoredAt env (s.storageNodes address) (.hash a.storageRoot) path b)
    (hnew : ¬ old.Content (.storageTrieNode address path (env.K b))) :
    StoredAt env (available env (diff.storage address) (s.storageNodes address)) (.hash a.storageRoot) path b := by
  refine reach (Old := fun p b => ∃ v a, old.trie.lookup (hexDigits address) = some v ∧
      env.decodeAccount v = some a ∧ a.storageRoot ≠ empty.root ∧
      StoredAt env (old.storageNodes address) (.hash a.storageRoot) p b) ?_ hst [] ?_ ?_
  · rintro q c r b _ ⟨v', a', g1, g2, g3, g4⟩ h2
    obtain ⟨⟨t, c1⟩, c2, _⟩ := old.storage address v' a' g1 g2 g3
    exact ⟨v', a', g1, g2, g3, old_closed c2 (hap.2 address) c1.commits g4 h2⟩
  · rw [← content_storage hap (storedAt_mem hst)]
    exact hnew
  · intro q c h1 h2
    refine mem_available.mpr ⟨storedAt_mem h1, hch.storage address v a q c hl ha hne h1 ?_⟩
    rw [content_storage hap (storedAt_mem h1)]
    exact h2

/-- The leaf of an account with new code or storage is new. -/
theorem leaf_reach (hch : Changes old s diff) (hap : Apart old s) {out : List Proof}
    (hw : Walk env (available env diff.trie s.nodes) s.nodes root none out) {address : Id} {v : Bytes}
    (hl : s.trie.lookup (hexDigits address) = some v) (hnew : old.trie.lookup (hexDigits address) ≠ some v) :
    ∃ q ∈ out, ∃ b key, q.proof.getLast? = some b ∧
        env.decode b = some (.leaf (key ++ [16]) v) ∧ hexDigits address = q.path ++ key := by
  rcases lookup_leaf s.sparse s.genuine.commits s.genuine.keys (.inr (.inr ⟨_, rfl⟩)) hl with e | ⟨p, key, b, c1, c2, c3⟩
  · cases e
  · have hn : ¬ old.Content (.accountTrieNode p (env.K b)) := by
      rw [content_node hap (storedAt_mem c1)]
      intro h
      have := leaf_lookup old h c3
      rw [← c2] at this
      exact hnew this
    obtain ⟨q, hq, rfl, hb⟩ := (hw.exact p b).mpr ⟨account_reach hch hap c1 hn, fun f hf => by cases hf⟩
    exact ⟨q, hq, b, key, hb, c3, c2⟩

theorem diff_complete (hch : Changes old s diff) (hap : Apart old s) {out : List Proof}
    (hw : Walk env (available env diff.trie s.nodes) s.nodes root none out) {k : ContentKey.State} (hk : s.Content k)
    (hnew : ¬ old.Content k) : ∃ q ∈ out, OfDiff s diff q k := by
  cases hk with
  | account path b hst =>
    obtain ⟨q, hq, rfl, hb⟩ := (hw.exact path b).mpr ⟨account_reach hch hap hst hnew, fun f hf => by cases hf⟩
    exact ⟨q, hq, .inl ⟨b, hb, rfl⟩⟩
  | code address v a hl ha hc =>
    obtain ⟨q, hq, b, key, hb, hd, hh⟩ := leaf_reach hch hap hw hl fun h => hnew (.code address v a h ha hc)
    exact ⟨q, hq, .inr ⟨b, key, v, a, address, hb, hd, hh, ha, .inl ⟨hc, hch.code address v a hl ha hc hnew, rfl⟩⟩⟩
  | storage address v a path b' hl ha hc hst =>
    have hl' : old.trie.lookup (hexDigits address) ≠ some v := by
      intro h
      obtain ⟨⟨t, c1⟩, c2, _⟩ := old.storage address v a h ha hc
      exact hnew (.storage address v a path b' h ha hc (storedAt_transfer (hap.2 address) c1.commits hst))
    obtain ⟨q, hq, b, key, hb, hd, hh⟩ := leaf_reach hch hap hw hl hl'
    exact ⟨q, hq, .inr ⟨b, key, v, a, address, hb, hd, hh, ha,
      .inr (.inl ⟨hc, path, b', storage_reach hch hap hl ha hc hst hnew, rfl⟩)⟩⟩

theorem diff_items (hch : Changes old s diff) (hap : Apart old s) (bh : Id) :
    ∃ N items, (∀ m, N ≤ m → diffItems env empty diff bh m root = some items) ∧ Sound env items ∧
      (∀ k ∈ items.map (·.1), s.Content k ∨ ∃ address, s.EmptyStorage address ∧ k = .storageTrieNode address [] empty.root) ∧
      ∀ k, s.Content k → ¬ old.Content k → k ∈ items.map (·.1) := by
  obtain ⟨w, out, h1, ⟨n, h2⟩, h3⟩ := partial_walk s.genuine hch.trieAnswers
  obtain ⟨g, N, hg⟩ := choose_max out (fun q n items => (∀ m, n ≤ m → diffNodeItems env empty diff bh m q = some items) ∧
    Sound env items ∧ ∀ k, k ∈ items.map (·.1) ↔ OfDiff s diff q k) fun q hq => diff_node_items s hch h3 bh q hq
  have hmem : ∀ k, k ∈ (out.flatMap g).map (·.1) ↔ ∃ q ∈ out, OfDiff s diff q k := by
    intro k
    rw [List.map_flatMap, List.mem_flatMap]
    constructor
    · rintro ⟨q, hq, hk⟩
      obtain ⟨_, _, _, _, hx⟩ := hg q hq
      exact ⟨q, hq, (hx k).mp hk⟩
    · rintro ⟨q, hq, hk⟩
      obtain ⟨_, _, _, _, hx⟩ := hg q hq
      exact ⟨q, hq, (hx k).mpr hk⟩
  refine ⟨max n N, out.flatMap g, fun m hm => ?_, ⟨?_, ?_⟩, fun k hk => ?_, fun k hk hn => ?_⟩
  · unfold diffItems
    rw [h1]
    simp only [h2 m (by omega)]
    rw [mapM_some_map (g := g) out fun q hq => ?_]
    · simp [List.flatMap_def]
    · obtain ⟨n', hn', hit, _⟩ := hg q hq
      exact hit m (by omega)
  · intro i hi
    obtain ⟨q, hq, hi⟩ := List.mem_flatMap.mp hi
    obtain ⟨_, _, _, hs, _⟩ := hg q hq
    exact hs.valid i hi
  · rw [List.map_flatMap, List.nodup_iff_pairwise_ne, List.pairwise_flatMap]
    refine ⟨fun q hq => ?_, ?_⟩
    · obtain ⟨_, _, _, hs, _⟩ := hg q hq
      exact List.nodup_iff_pairwise_ne.mp hs.nodup
    · refine h3.ordered.imp_of_mem fun {x y} hx hy hxy a ha b hb e => ?_
      subst e
      obtain ⟨_, _, _, _, hx'⟩ := hg x hx
      obtain ⟨_, _, _, _, hy'⟩ := hg y hy
      rw [ofDiff_unique s h3 hx hy ((hx' _).mp ha) ((hy' _).mp hb)] at hxy
      exact List.lt_irrefl _ hxy
  · obtain ⟨q, hq, ho⟩ := (hmem k).mp hk
    exact ofDiff_content s h3 hq ho
  · exact (hmem k).mpr (diff_complete hch hap h3 hk hn)

/-! ## More steps -/

theorem take_more {env : Env} : ∀ (n m : Nat) (w : Walker) (out : List Proof) (w' : Walker), n ≤ m → w.take env n = some (out, w') →
    w'.stack = [] → w.take env m = some (out, w')
  | 0, m, w, out, w', _, h, he => by
    simp only [Walker.take, Option.some.injEq, Prod.mk.injEq] at h
    obtain ⟨rfl, rfl⟩ := h
    cases m with
    | zero => rfl
    | succ m => simp [Walker.take, Walker.next, he]
  | n + 1, 0, _, _, _, h, _, _ => absurd h (by omega)
  | n + 1, m + 1, w, out, w', hle, h, he => by
    unfold Walker.take at h ⊢
    cases hn : w.next env with
    | none => rw [hn] at h; cases h
    | some r =>
      obtain ⟨p, w1⟩ := r
      rw [hn] at h
      cases p with
      | none => exact h
      | some p =>
        simp only [Option.map_eq_some_iff] at h
        obtain ⟨r, h1, h2⟩ := h
        cases h2
        simp only [take_more n m w1 r.1 r.2 (by omega) h1 he, Option.map_some]

/-- More calls of `next` after the end change nothing. -/
theorem all_more {env : Env} {n m : Nat} {w : Walker} {out : List Proof} (hle : n ≤ m) (h : w.all env n = some out) :
    w.all env m = some out := by
  unfold Walker.all at h ⊢
  cases ht : w.take env n with
  | none => rw [ht] at h; cases h
  | some r =>
    rw [ht] at h
    obtain ⟨o, w'⟩ := r
    simp only at h
    split at h
    · next he =>
      cases h
      rw [take_more n m w _ w' hle ht he]
      simp [he]
    · cases h

theorem storageItems_more {env : Env} {empty : Empty} {src : Source} {bh : Id} {n m : Nat} {p : Proof} {a r : Id}
    {items : List Item} (hle : n ≤ m) (h : storageItems env empty src bh n p a r = some items) :
    storageItems env empty src bh m p a r = some items := by
  unfold storageItems at h ⊢
  split
  · next hr => rw [if_pos hr] at h; exact h
  · next hr =>
    rw [if_neg hr] at h
    cases hw : Walker.new r (src.storage a) none with
    | none => rw [hw] at h; cases h
    | some w =>
      rw [hw] at h
      simp only at h ⊢
      cases ha : w.all env n with
      | none => rw [ha] at h; cases h
      | some out => rw [ha] at h; rw [all_more hle ha]; exact h

theorem diffStorageItems_more {env : Env} {src : Source} {bh : Id} {n m : Nat} {p : Proof} {a r : Id}
    {items : List Item} (hle : n ≤ m) (h : diffStorageItems env src bh n p a r = some items) :
    diffStorageItems env src bh m p a r = some items := by
  unfold diffStorageItems at h ⊢
  cases hw : Walker.newPartial r (src.storage a) with
  | none => rw [hw] at h; cases h
  | some w =>
    rw [hw] at h
    simp only at h ⊢
    cases ha : w.all env n with
    | none => rw [ha] at h; cases h
    | some out => rw [ha] at h; rw [all_more hle ha]; exact h

theorem nodeItems_more {env : Env} {empty : Empty} {src : Source} {bh : Id} {n m : Nat} {p : Proof}
    {items : List Item} (hle : n ≤ m) (h : nodeItems env empty src bh n p = some items) :
    nodeItems env empty src bh m p = some items := by
  unfold nodeItems at h ⊢
  cases hk : accountKey env p with
  | none => rw [hk] at h; cases h
  | some key =>
    rw [hk] at h
    simp only at h ⊢
    cases hd : p.proof.getLast?.bind env.decode with
    | none => rw [hd] at h; cases h
    | some node =>
      rw [hd] at h
      cases node with
      | leaf k v =>
        simp only at h ⊢
        cases hl : leafAccount env p k v with
        | none => rw [hl] at h; cases h
        | some r =>
          obtain ⟨address, a⟩ := r
          rw [hl] at h
          simp only at h ⊢
          cases hs : storageItems env empty src bh n p address a.storageRoot with
          | none =>
            rw [hs] at h
            simp at h
          | some st =>
            rw [hs] at h
            rw [storageItems_more hle hs]
            exact h
      | _ => exact h

theorem diffNodeItems_more {env : Env} {empty : Empty} {src : Source} {bh : Id} {n m : Nat} {p : Proof}
    {items : List Item} (hle : n ≤ m) (h : diffNodeItems env empty src bh n p = some items) :
    diffNodeItems env empty src bh m p = some items := by
  unfold diffNodeItems at h ⊢
  cases hk : accountKey env p with
  | none => rw [hk] at h; cases h
  | some key =>
    rw [hk] at h
    simp only at h ⊢
    cases hd : p.proof.getLast?.bind env.decode with
    | none => rw [hd] at h; cases h
    | some node =>
      rw [hd] at h
      cases node with
      | leaf k v =>
        simp only at h ⊢
        cases hl : leafAccount env p k v with
        | none => rw [hl] at h; cases h
        | some r =>
          obtain ⟨address, a⟩ := r
          rw [hl] at h
          simp only at h ⊢
          cases hs : diffStorageItems env src bh n p address a.storageRoot with
          | none => rw [hs] at h; cases h
          | some st =>
            rw [hs] at h
            rw [diffStorageItems_more hle hs]
            exact h
      | _ => exact h

theorem mapM_more {α β : Type} {f g : α → Option β} (hfg : ∀ a b, f a = some b → g a = some b) :
    ∀ (l : List α) (r : List β), l.mapM f = some r → l.mapM g = some r
  | [], r, h => by simpa using h
  | a :: l, r, h => by
    rw [List.mapM_cons] at h ⊢
    cases ha : f a with
    | none => rw [ha] at h; cases h
    | some b =>
      cases hl : l.mapM f with
      | none => rw [ha, hl] at h; cases h
      | some bs =>
        rw [ha, hl] at h
        rw [hfg a b ha, mapM_more hfg l bs hl]
        exact h

theorem snapshotItems_more {env : Env} {empty : Empty} {src : Source} {bh root : Id} {n m : Nat} {items : List Item}
    (hle : n ≤ m) (h : snapshotItems env empty src bh n root = some items) : snapshotItems env empty src bh m root = some items := by
  unfold snapshotItems at h ⊢
  cases hw : Walker.new root src.trie none with
  | none => rw [hw] at h; cases h
  | some w =>
    rw [hw] at h
    simp only at h ⊢
    cases ha : w.all env n with
    | none => rw [ha] at h; cases h
    | some out =>
      rw [ha] at h
      rw [all_more hle ha]
      simp only [Option.map_eq_some_iff] at h ⊢
      obtain ⟨r, h1, h2⟩ := h
      exact ⟨r, mapM_more (fun a b hab => nodeItems_more hle hab) out r h1, h2⟩

theorem diffItems_more {env : Env} {empty : Empty} {src : Source} {bh root : Id} {n m : Nat} {items : List Item}
    (hle : n ≤ m) (h : diffItems env empty src bh n root = some items) : diffItems env empty src bh m root = some items := by
  unfold diffItems at h ⊢
  cases hw : Walker.newPartial root src.trie with
  | none => rw [hw] at h; cases h
  | some w =>
    rw [hw] at h
    simp only at h ⊢
    cases ha : w.all env n with
    | none => rw [ha] at h; cases h
    | some out =>
      rw [ha] at h
      rw [all_more hle ha]
      simp only [Option.map_eq_some_iff] at h ⊢
      obtain ⟨r, h1, h2⟩ := h
      exact ⟨r, mapM_more (fun a b hab => diffNodeItems_more hle hab) out r h1, h2⟩

end Verif.TrieWalker
