import Verif.Props.EvmStateSpec
import Verif.Props.StateContent

namespace Verif.Trie

/-- A traversal that ends without a value or a node: nothing is stored. -/
theorem traverse_empty {env : Env} {db : List Bytes} {n : Node} {t : PTrie} (h : Rep env db n t) :
    ∀ {path : List UInt8} {i : EmptyInfo}, n.traverse path = .empty i → t.lookup path = none := by
  induction h with
  | empty => intros; rfl
  | leaf key v =>
    intro path i ht
    simp only [Node.traverse, List.getLast?_append, List.getLast?_singleton, Option.some_or,
      List.dropLast_concat] at ht
    repeat' split at ht
    all_goals first | cases ht; done | skip
    next h1 h2 h3 =>
    simp only [PTrie.lookup]
    rw [if_neg]
    exact fun e => h3 e.symm
  | extension pre n t _ ih =>
    intro path i ht
    simp only [Node.traverse] at ht
    split at ht
    · cases ht
    · split at ht
      · next rem hs =>
        rw [stripPrefix_some hs, lookup_extension_append]
        exact ih ht
      · next hs =>
        simp only [PTrie.lookup]
        rw [if_neg]
        rintro ⟨r, rfl⟩
        rw [stripPrefix_append] at hs
        cases hs
  | branch ns ts v _ ih =>
    intro path i ht
    cases path with
    | nil =>
      simp only [Node.traverse] at ht
      split at ht
      · cases ht
      · rfl
    | cons first rem =>
      simp only [Node.traverse] at ht
      split at ht
      · next hlt =>
        simp only [PTrie.lookup, hlt, dif_pos]
        exact ih _ ht
      · cases ht
  | hash b n t hb hd hr ih =>
    intro path i ht
    simp [Node.traverse] at ht

/-- A traversal consumes a part of the path. -/
theorem traverse_suffix : ∀ (n : Node) (path : List UInt8) {h : Id} {r : List UInt8},
    n.traverse path = .node h r → ∃ c, path = c ++ r ∧ ((∀ h, n ≠ .hash h) → c ≠ [])
  | .empty, path, h, r, ht => by simp [Node.traverse] at ht
  | .leaf key v, path, h, r, ht => by
    simp only [Node.traverse] at ht
    repeat' split at ht
    all_goals cases ht
  | .extension pre n, path, h, r, ht => by
    simp only [Node.traverse] at ht
    split at ht
    · cases ht
    · next hp =>
      split at ht
      · next rem hs =>
        obtain ⟨c, rfl, _⟩ := traverse_suffix n rem ht
        refine ⟨pre ++ c, by rw [stripPrefix_some hs, List.append_assoc], fun _ => ?_⟩
        simp [hp]
      · cases ht
  | .branch cs v, [], h, r, ht => by
    simp only [Node.traverse] at ht
    split at ht <;> cases ht
  | .branch cs v, a :: path, h, r, ht => by
    simp only [Node.traverse] at ht
    split at ht
    · obtain ⟨c, rfl, _⟩ := traverse_suffix _ path ht
      exact ⟨a :: c, rfl, fun _ => by simp⟩
    · cases ht
  | .hash h', path, h, r, ht => by
    simp only [Node.traverse, Traversal.node.injEq] at ht
    obtain ⟨rfl, rfl⟩ := ht
    exact ⟨[], rfl, fun hn => absurd rfl (hn _)⟩

/-- With the keys that the code accepts, a traversal of nibbles has no error. -/
theorem traverse_no_error {env : Env} {db : List Bytes} {n : Node} {t : PTrie} (h : Rep env db n t) :
    t.NoEmptyKeys → ∀ {path : List UInt8} {e : TraversalError}, n.traverse path ≠ .error e := by
  induction h with
  | empty => intro _ path e ht; simp [Node.traverse] at ht
  | leaf key v =>
    intro hw path e ht
    cases hw with
    | leaf _ _ hk =>
      simp only [Node.traverse, List.getLast?_append, List.getLast?_singleton, Option.some_or,
        List.dropLast_concat, ne_eq, not_true_eq_false, if_false, hk] at ht
      split at ht <;> cases ht
  | extension pre n t _ ih =>
    intro hw path e ht
    cases hw with
    | extension _ _ hp hw =>
      simp only [Node.traverse, hp, if_false] at ht
      split at ht
      · exact ih hw ht
      · cases ht
  | branch ns ts v _ ih =>
    intro hw path e ht
    cases hw with
    | branch _ _ hw =>
      cases path with
      | nil =>
        simp only [Node.traverse] at ht
        split at ht <;> cases ht
      | cons a path =>
        simp only [Node.traverse] at ht
        split at ht
        · exact ih _ (hw _) ht
        · cases ht
  | hash b n t hb hd hr ih =>
    intro _ path e ht
    simp [Node.traverse] at ht

/-- A traversal that ends at a hash leads to a stored node, whose subtrie has the rest of the path. -/
theorem traverse_stored {env : Env} {db : List Bytes} {n : Node} {t : PTrie} (h : Rep env db n t) :
    t.NoEmptyKeys → ∀ {path : List UInt8} {hash : Id} {r : List UInt8}, n.traverse path = .node hash r →
    ∃ c b n' t', path = c ++ r ∧ hash = env.K b ∧ StoredAt env db n c b ∧ env.decode b = some n' ∧
      Rep env db n' t' ∧ t'.NoEmptyKeys ∧ t.lookup path = t'.lookup r := by
  induction h with
  | empty => intro _ path hash r ht; simp [Node.traverse] at ht
  | leaf key v =>
    intro _ path hash r ht
    simp only [Node.traverse] at ht
    repeat' split at ht
    all_goals cases ht
  | extension pre n t _ ih =>
    intro hw path hash r ht
    cases hw with
    | extension _ _ hp hw =>
      simp only [Node.traverse, hp, if_false] at ht
      split at ht
      · next rem hs =>
        obtain ⟨c, b, n', t', rfl, hh, hst, hd, hr, hw', hl⟩ := ih hw ht
        refine ⟨pre ++ c, b, n', t', by rw [stripPrefix_some hs, List.append_assoc], hh,
          .extension _ _ _ _ hp hst, hd, hr, hw', ?_⟩
        rw [stripPrefix_some hs, lookup_extension_append, hl]
      · cases ht
  | branch ns ts v _ ih =>
    intro hw path hash r ht
    cases hw with
    | branch _ _ hw =>
      cases path with
      | nil =>
        simp only [Node.traverse] at ht
        split at ht <;> cases ht
      | cons a path =>
        simp only [Node.traverse] at ht
        split at ht
        · next hlt =>
          obtain ⟨c, b, n', t', rfl, hh, hst, hd, hr, hw', hl⟩ := ih _ (hw _) ht
          refine ⟨a :: c, b, n', t', rfl, hh, ?_, hd, hr, hw', ?_⟩
          · have e : a = UInt8.ofNat (⟨a.toNat, hlt⟩ : Fin 16).val := by simp
            have hb := StoredAt.branch (env := env) (db := db) ns v ⟨a.toNat, hlt⟩ c b hst
            rw [← e] at hb
            exact hb
          · simp only [PTrie.lookup, hlt, dif_pos]
            exact hl
        · cases ht
  | hash b n t hb hd hr ih =>
    intro hw path hash r ht
    simp only [Node.traverse, Traversal.node.injEq] at ht
    obtain ⟨rfl, rfl⟩ := ht
    exact ⟨[], b, n, t, rfl, rfl, .here b hb, hd, hr, hw, rfl⟩

theorem StoredAt.trans {env : Env} {db : List Bytes} {m n : Node} {p c : List UInt8} {b b' : Bytes}
    (h : StoredAt env db m p b) (hd : env.decode b = some n) (h' : StoredAt env db n c b') :
    StoredAt env db m (p ++ c) b' := by
  induction h with
  | here b hb => exact .hash b n c b' hb hd h'
  | hash b'' n' path b hb hd' _ ih => exact .hash _ _ _ _ hb hd' (ih hd)
  | extension pre n' path b hp _ ih => rw [List.append_assoc]; exact .extension _ _ _ _ hp (ih hd)
  | branch ns v i path b _ ih => exact .branch _ _ _ _ _ (ih hd)

end Verif.Trie

namespace Verif.EvmState
open Verif.Trie Verif.StateContent Verif.Props
open Verif.ContentKey (State)

/-- Every cached value has the node or code that its key names. -/
def Good (env : Env) (s : Reader) : Prop :=
  ∀ e ∈ s.cache, (subject e.2).map env.trie.K = some (namedHash e.1)

theorem find_mem {κ α : Type} [DecidableEq κ] {l : List (κ × α)} {k : κ} {v : α} (h : find l k = some v) :
    (k, v) ∈ l := by
  simp only [find, Option.map_eq_some_iff] at h
  obtain ⟨e, he, rfl⟩ := h
  have h1 := List.find?_some he
  have h2 := List.mem_of_find?_eq_some he
  simp only [decide_eq_true_eq] at h1
  rw [← h1]
  exact h2

theorem find_cons {κ α : Type} [DecidableEq κ] (l : List (κ × α)) (k k' : κ) (v : α) :
    find ((k, v) :: l) k' = if k = k' then some v else find l k' := by
  simp only [find, List.find?_cons]
  split
  · next h => simp only [decide_eq_true_eq] at h; simp [h]
  · next h => simp only [decide_eq_false_iff_not] at h; simp [h]

/-- What is cached stays cached, and codes keep their owners. -/
def Extends (s s' : Reader) : Prop :=
  (∀ k v, find s.cache k = some v → find s'.cache k = some v) ∧
  (∀ k v, find s.owners k = some v → find s'.owners k = some v) ∧ s.nodes ⊆ s'.nodes

theorem Extends.refl (s : Reader) : Extends s s := ⟨fun _ _ h => h, fun _ _ h => h, fun _ h => h⟩
theorem Extends.trans {a b c : Reader} (h : Extends a b) (h' : Extends b c) : Extends a c :=
  ⟨fun k v e => h'.1 k v (h.1 k v e), fun k v e => h'.2.1 k v (h.2.1 k v e), fun _ e => h'.2.2 (h.2.2 e)⟩

theorem fetchContent_extends (net : Network) (s : Reader) (key : State) :
    Extends s (fetchContent net s key).2 ∧ (fetchContent net s key).2.owners = s.owners := by
  unfold fetchContent
  split
  · exact ⟨.refl s, rfl⟩
  · next hn =>
    split
    · exact ⟨.refl s, rfl⟩
    · split
      · exact ⟨.refl s, rfl⟩
      · refine ⟨⟨fun k v h => ?_, fun _ _ h => h, fun x hx => ?_⟩, rfl⟩
        · rw [find_cons]
          split
          · next e => rw [e, h] at hn; cases hn
          · exact h
        · simp only [Reader.nodes, List.filterMap_cons] at hx ⊢
          split
          · exact hx
          · exact List.mem_cons_of_mem _ hx

theorem fetchContent_good {env : Env} {net : Network} (hv : Validated env net) {s : Reader} (hg : Good env s)
    (key : State) : Good env (fetchContent net s key).2 := by
  unfold fetchContent
  split
  · exact hg
  · split
    · exact hg
    · next bs hb =>
      split
      · exact hg
      · next v hd =>
        intro e he
        rcases List.mem_cons.mp he with rfl | he
        · obtain ⟨r, h1, h2⟩ := hv key bs hb
          obtain ⟨v', hd', _, hs, _⟩ := C37_hash env.trie key bs r h1 h2
          rw [hd] at hd'
          cases hd'
          exact hs
        · exact hg e he

theorem fetchContent_find {net : Network} {s s' : Reader} {key : State} {v : Value}
    (h : fetchContent net s key = (.ok v, s')) : find s'.cache key = some v := by
  unfold fetchContent at h
  split at h
  · next h1 => cases h; exact h1
  · split at h
    · cases h
    · split at h
      · cases h
      · cases h; rw [find_cons, if_pos rfl]

/-- What a successful `fetchNode` gives. -/
theorem fetchNode_ok {env : Env} {net : Network} {s s' : Reader} {key : State} {n : Node}
    (h : fetchNode env net s key = (.ok n, s')) :
    ∃ b, fetchContent net s key = (.ok (.trieNode b), s') ∧ env.trie.decode b = some n := by
  unfold fetchNode at h
  split at h
  · cases h
  · next b s1 hf =>
    split at h
    · cases h
    · next n' hd => cases h; exact ⟨b, hf, hd⟩
  · cases h

theorem fetchNode_snd (env : Env) (net : Network) (s : Reader) (key : State) :
    (fetchNode env net s key).2 = (fetchContent net s key).2 := by
  unfold fetchNode
  split
  · next h => rw [h]
  · next h => rw [h]; simp only; split <;> rfl
  · next h => rw [h]

theorem mem_nodes {s : Reader} {key : State} {b : Bytes} (h : find s.cache key = some (.trieNode b)) :
    b ∈ s.nodes := by
  simp only [Reader.nodes, List.mem_filterMap]
  exact ⟨_, find_mem h, rfl⟩

theorem stripSuffix_append (p r : List UInt8) : stripSuffix (p ++ r) r = some p := by
  simp [stripSuffix]

theorem nibbles_ok {p : List UInt8} (hl : p.length ≤ 64) (hp : ∀ x ∈ p, x.toNat < 16) :
    Nibbles.tryFromUnpacked p = some p := by
  simp only [Nibbles.tryFromUnpacked]
  rw [if_neg (by omega), if_pos]
  simp only [List.all_eq_true, decide_eq_true_eq]
  intro x hx
  have := hp x hx
  rw [UInt8.le_iff_toNat_le]
  have e : (0xF : UInt8).toNat = 15 := rfl
  omega

/-- Facts about every walk: the reader only grows. -/
theorem walk_state (env : Env) (net : Network) (key : List UInt8 → Id → State) (path : List UInt8) :
    ∀ (rounds : Nat) (node : Id) (rem : List UInt8) (s : Reader),
    Extends s (walk env net key path rounds node rem s).2 ∧
    (walk env net key path rounds node rem s).2.owners = s.owners ∧
    (Validated env net → Good env s → Good env (walk env net key path rounds node rem s).2)
  | 0, node, rem, s => ⟨.refl s, rfl, fun _ h => h⟩
  | rounds + 1, node, rem, s => by
    simp only [walk]
    split
    · exact ⟨.refl s, rfl, fun _ h => h⟩
    · next pre hp =>
      have h0 := fetchContent_extends net s (key pre node)
      have h1 := fun (hv : Validated env net) (hg : Good env s) => fetchContent_good hv hg (key pre node)
      rw [← fetchNode_snd env] at h0 h1
      split
      · next e s' hf => rw [hf] at h0 h1; exact ⟨h0.1, h0.2, h1⟩
      · next n s' hf =>
        rw [hf] at h0 h1
        split
        · exact ⟨h0.1, h0.2, h1⟩
        · exact ⟨h0.1, h0.2, h1⟩
        · next hh r ht =>
          have ih := walk_state env net key path rounds hh r s'
          exact ⟨h0.1.trans ih.1, ih.2.1.trans h0.2, fun hv hg => ih.2.2 hv (h1 hv hg)⟩
        · exact ⟨h0.1, h0.2, h1⟩
        · exact ⟨h0.1, h0.2, h1⟩

theorem walk_sound {env : Env} {net : Network} {key : List UInt8 → Id → State} {path : List UInt8}
    {db : List Bytes} (hk : ∀ p h, namedHash (key p h) = h) (hv : Validated env net) :
    ∀ (rounds : Nat) (node : Id) (rem : List UInt8) (s s' : Reader) (t : PTrie) (v : Option Bytes),
    Good env s → Rep env.trie db (.hash node) t →
    walk env net key path rounds node rem s = (.ok v, s') →
    t.lookup rem = v ∨ ByteCollision env.trie.K s'.nodes db
  | 0, node, rem, s, s', t, v, hg, hr, h => by cases h
  | rounds + 1, node, rem, s, s', t, v, hg, hr, h => by
    simp only [walk] at h
    split at h
    · cases h
    · next pre hp =>
      split at h
      · cases h
      · next n s1 hf =>
        obtain ⟨b, hc, hd⟩ := fetchNode_ok hf
        have hfind := fetchContent_find hc
        have hg1 := fetchContent_good hv hg (key pre node)
        rw [hc] at hg1
        have hb := hg1 _ (find_mem hfind)
        simp only [subject, Option.map_some, Option.some.injEq, hk] at hb
        have hmem := mem_nodes hfind
        rcases hash_inv hr hb with ⟨hm, n', hd', hrep⟩ | ⟨b', hb', hne, hkk⟩
        · rw [hd] at hd'
          cases hd'
          split at h
          · next ht => cases h; exact .inl (traverse_empty hrep ht)
          · next ht => cases h; exact .inl (traverse_value hrep ht)
          · next hh r ht =>
            obtain ⟨c, t', hp', hr', _, hl⟩ := traverse_node hrep ht
            rcases walk_sound hk hv rounds hh r s1 s' t' v hg1 hr' h with h2 | h2
            · left; rw [hp', hl, h2]
            · exact .inr h2
          · cases h
          · cases h
        · right
          refine ⟨b, ?_, b', hb', hne, hkk⟩
          split at h
          · cases h; exact hmem
          · cases h; exact hmem
          · next hh r ht =>
            have := (walk_state env net key path rounds hh r s1).1.2.2 hmem
            rw [h] at this
            exact this
          · cases h
          · cases h

theorem walk_safe {env : Env} {net : Network} {key : List UInt8 → Id → State} {path : List UInt8}
    (hl : path.length ≤ 64) (hn : ∀ x ∈ path, x.toNat < 16) :
    ∀ (rounds : Nat) (node : Id) (pre rem : List UInt8) (s : Reader), path = pre ++ rem →
    (walk env net key path rounds node rem s).1 ≠ .error .panic ∧
    (NoBareHash env → rem.length < rounds → (walk env net key path rounds node rem s).1 ≠ .error .running)
  | 0, node, pre, rem, s, hp => by simp [walk]
  | rounds + 1, node, pre, rem, s, hp => by
    have hs : (stripSuffix path rem).bind Nibbles.tryFromUnpacked = some pre := by
      rw [hp, stripSuffix_append]
      apply nibbles_ok
      · rw [hp, List.length_append] at hl; omega
      · intro x hx; exact hn x (by rw [hp]; simp [hx])
    have hnr : ∀ x ∈ rem, x.toNat < 16 := fun x hx => hn x (by rw [hp]; simp [hx])
    simp only [walk, hs]
    split
    · next e s' hf =>
      have : e ≠ .panic ∧ e ≠ .running := by
        unfold fetchNode at hf
        split at hf
        · next e1 s1 hc =>
          cases hf
          unfold fetchContent at hc
          repeat' split at hc
          all_goals cases hc
          all_goals simp
        · split at hf <;> cases hf
          simp
        · cases hf; simp
      simp only [ne_eq, Except.error.injEq]
      exact ⟨this.1, fun _ _ => this.2⟩
    · next n s' hf =>
      have hnp := traverse_no_panic n rem hnr
      split
      · simp
      · simp
      · next hh r ht =>
        obtain ⟨c, hc, hc'⟩ := traverse_suffix n rem ht
        have ih := walk_safe (env := env) (net := net) (key := key) hl hn rounds hh (pre ++ c) r s' (by rw [hp, hc, List.append_assoc])
        refine ⟨ih.1, fun hb hlt => ih.2 hb ?_⟩
        obtain ⟨b, _, hd⟩ := fetchNode_ok hf
        have : c ≠ [] := hc' (fun h e => hb b h (by rw [hd, e]))
        have hlen : 0 < c.length := List.length_pos_iff.mpr this
        rw [hc, List.length_append] at hlt
        omega
      · simp
      · next ht => exact absurd ht hnp.1

/-- An answered walk is answered the same way by every reader that has at least the same content. -/
theorem walk_again {env : Env} {net : Network} {key : List UInt8 → Id → State} {path : List UInt8} :
    ∀ (rounds : Nat) (node : Id) (rem : List UInt8) (s s' : Reader) (v : Option Bytes),
    walk env net key path rounds node rem s = (.ok v, s') → ∀ (net' : Network) (s'' : Reader), Extends s' s'' →
    walk env net' key path rounds node rem s'' = (.ok v, s'')
  | 0, node, rem, s, s', v, h, net', s'', hx => by cases h
  | rounds + 1, node, rem, s, s', v, h, net', s'', hx => by
    simp only [walk] at h ⊢
    split at h
    · cases h
    · next pre hp =>
      split at h
      · cases h
      · next n s1 hf =>
        obtain ⟨b, hc, hd⟩ := fetchNode_ok hf
        have hfind := fetchContent_find hc
        have hx1 : Extends s1 s'' := by
          split at h
          · cases h; exact hx
          · cases h; exact hx
          · next hh r ht =>
            have := (walk_state env net key path rounds hh r s1).1
            rw [h] at this
            exact this.trans hx
          · cases h
          · cases h
        have hf' : fetchNode env net' s'' (key pre node) = (.ok n, s'') := by
          simp only [fetchNode, fetchContent, hx1.1 _ _ hfind, hd]
        rw [hf']
        simp only
        split at h
        · cases h; rfl
        · cases h; rfl
        · next hh r ht =>
          exact walk_again rounds hh r s1 s' v h net' s'' hx
        · cases h
        · cases h

/-- For the nodes of this trie, the reader has nothing but the nodes without proof. -/
def Plain (env : Env) (s : Reader) (key : List UInt8 → Id → State) (db : List Bytes) (root : Id) : Prop :=
  ∀ path b, StoredAt env.trie db (.hash root) path b →
    ∀ v, find s.cache (key path (env.trie.K b)) = some v → v = .trieNode b


/-- The keys of a trie: the hash is the one of the node, and nodes without proof belong to them. -/
def TrieKey (key : List UInt8 → Id → State) : Prop :=
  ∀ p h, namedHash (key p h) = h ∧ ∀ n : Bytes, n.length ≤ 1024 → Belongs (key p h) (.trieNode n)

theorem trieKey_account : TrieKey .accountTrieNode := fun p h => ⟨rfl, fun n hn => .accountNode p h n hn⟩
theorem trieKey_storage (a : Id) : TrieKey (.storageTrieNode a) := fun p h => ⟨rfl, fun n hn => .storageNode a p h n hn⟩

theorem fetchContent_plain {env : Env} {net : Network} {key : List UInt8 → Id → State} {db : List Bytes} {root : Id}
    (hk : TrieKey key) (hs : Serves env net key db root) {s : Reader} (hp : Plain env s key db root) (k : State) :
    Plain env (fetchContent net s k).2 key db root := by
  unfold fetchContent
  split
  · exact hp
  · split
    · exact hp
    · next bs hb =>
      split
      · exact hp
      · next v hd =>
        intro path b hst v' hv'
        rw [find_cons] at hv'
        split at hv'
        · next e =>
          obtain ⟨h1, h2⟩ := hs path b hst
          rw [e, h2] at hb
          cases hb
          rw [e, C51_state_roundtrip _ _ ((hk path (env.trie.K b)).2 b h1)] at hd
          cases hd
          cases hv'
          rfl
        · exact hp path b hst v' hv'

theorem walk_plain {env : Env} {net : Network} {key key' : List UInt8 → Id → State} {path : List UInt8} {db : List Bytes}
    {root : Id} (hk : TrieKey key) (hs : Serves env net key db root) :
    ∀ (rounds : Nat) (node : Id) (rem : List UInt8) (s : Reader), Plain env s key db root →
    Plain env (walk env net key' path rounds node rem s).2 key db root
  | 0, node, rem, s, hp => hp
  | rounds + 1, node, rem, s, hp => by
    simp only [walk]
    split
    · exact hp
    · next pre _ =>
      have h1 := fetchContent_plain hk hs hp (key' pre node)
      rw [← fetchNode_snd env] at h1
      split
      · next hf => rw [hf] at h1; exact h1
      · next hf =>
        rw [hf] at h1
        split
        · exact h1
        · exact h1
        · exact walk_plain hk hs rounds _ _ _ h1
        · exact h1
        · exact h1

theorem fetchNode_served {env : Env} {net : Network} {key : List UInt8 → Id → State} {db : List Bytes} {root : Id}
    (hk : TrieKey key) (hs : Serves env net key db root) {s : Reader} (hp : Plain env s key db root)
    {path : List UInt8} {b : Bytes} (hst : StoredAt env.trie db (.hash root) path b) {n : Node}
    (hd : env.trie.decode b = some n) :
    ∃ s', fetchNode env net s (key path (env.trie.K b)) = (.ok n, s') := by
  cases hf : find s.cache (key path (env.trie.K b)) with
  | some v =>
    have := hp path b hst v hf
    subst this
    exact ⟨s, by simp only [fetchNode, fetchContent, hf, hd]⟩
  | none =>
    obtain ⟨h1, h2⟩ := hs path b hst
    have h3 := C51_state_roundtrip _ _ ((hk path (env.trie.K b)).2 b h1)
    exact ⟨_, by simp only [fetchNode, fetchContent, hf, h2, h3, hd]; rfl⟩

theorem walk_complete {env : Env} {net : Network} {key : List UInt8 → Id → State} {path : List UInt8} {db : List Bytes}
    {root : Id} (hk : TrieKey key) (hs : Serves env net key db root) (hb : NoBareHash env)
    (hl : path.length ≤ 64) (hn : ∀ x ∈ path, x.toNat < 16) :
    ∀ (rounds : Nat) (pre rem : List UInt8) (s : Reader) (b : Bytes) (n : Node) (t : PTrie),
    Plain env s key db root → path = pre ++ rem → StoredAt env.trie db (.hash root) pre b →
    env.trie.decode b = some n → Rep env.trie db n t → t.NoEmptyKeys → rem.length < rounds →
    ∃ s', walk env net key path rounds (env.trie.K b) rem s = (.ok (t.lookup rem), s')
  | 0, pre, rem, s, b, n, t, hp, hpath, hst, hd, hr, hw, hlt => by omega
  | rounds + 1, pre, rem, s, b, n, t, hp, hpath, hst, hd, hr, hw, hlt => by
    have hss : (stripSuffix path rem).bind Nibbles.tryFromUnpacked = some pre := by
      rw [hpath, stripSuffix_append]
      apply nibbles_ok
      · rw [hpath, List.length_append] at hl; omega
      · intro x hx; exact hn x (by rw [hpath]; simp [hx])
    have hnr : ∀ x ∈ rem, x.toNat < 16 := fun x hx => hn x (by rw [hpath]; simp [hx])
    obtain ⟨s1, hf⟩ := fetchNode_served hk hs hp hst hd
    have hp1 := fetchContent_plain hk hs hp (key pre (env.trie.K b))
    rw [← fetchNode_snd env, hf] at hp1
    simp only [walk, hss, hf]
    cases ht : n.traverse rem with
    | empty i => exact ⟨s1, by rw [traverse_empty hr ht]⟩
    | value v => exact ⟨s1, by rw [traverse_value hr ht]⟩
    | error e => exact absurd ht (traverse_no_error hr hw)
    | panic => exact absurd ht (traverse_no_panic n rem hnr).1
    | node hh r =>
      obtain ⟨c, b', n', t', h1, rfl, h3, h4, h5, h6, h7⟩ := traverse_stored hr hw ht
      obtain ⟨c', h8, h9⟩ := traverse_suffix n rem ht
      have hcc : c = c' := List.append_cancel_right (h1.symm.trans h8)
      have hc : c ≠ [] := by
        rw [hcc]
        exact h9 (fun h e => hb b h (by rw [hd, e]))
      have hlen : 0 < c.length := List.length_pos_iff.mpr hc
      obtain ⟨s2, h⟩ := walk_complete hk hs hb hl hn rounds (pre ++ c) r s1 b' n' t' hp1
        (by rw [hpath, h1, List.append_assoc]) (hst.trans hd h3) h4 h5 h6
        (by rw [h1, List.length_append] at hlt; omega)
      exact ⟨s2, by rw [h7]; exact h⟩

theorem digits_length (h : Id) : (hexDigits h).length = 64 := by simp [hexDigits]
theorem digits_lt (h : Id) : ∀ x ∈ hexDigits h, x.toNat < 16 := by
  rw [← unpack_hash]; exact unpackAll_lt _

/-- What an answer of `traverse` stands for. -/
theorem traverse_ok {α : Type} {env : Env} {net : Network} {rounds : Nat} {key : List UInt8 → Id → State}
    {decode : Bytes → Option α} {root path : Id} {s s' : Reader} {x : Option α}
    (h : traverse env net rounds key decode root path s = (.ok x, s')) :
    ∃ v, walk env net key (hexDigits path) rounds root (hexDigits path) s = (.ok v, s') ∧
      match v with | none => x = none | some v => ∃ a, decode v = some a ∧ x = some a := by
  simp only [traverse, unpack_hash] at h
  split at h
  · cases h
  · next hw => cases h; exact ⟨none, hw, rfl⟩
  · next v _ hw =>
    split at h
    · cases h
    · next a ha => cases h; exact ⟨some v, hw, a, ha, rfl⟩

theorem traverse_snd {α : Type} (env : Env) (net : Network) (rounds : Nat) (key : List UInt8 → Id → State)
    (decode : Bytes → Option α) (root path : Id) (s : Reader) :
    (traverse env net rounds key decode root path s).2 =
      (walk env net key (hexDigits path) rounds root (hexDigits path) s).2 := by
  simp only [traverse, unpack_hash]
  split
  · next h => rw [h]
  · next h => rw [h]
  · next h => rw [h]; simp only; split <;> rfl

theorem traverse_sound {α : Type} {env : Env} {net : Network} {rounds : Nat} {key : List UInt8 → Id → State}
    {decode : Bytes → Option α} {root path : Id} {s s' : Reader} {x : Option α} {db : List Bytes} {t : PTrie}
    (hk : TrieKey key) (hv : Validated env net) (hg : Good env s) (hc : Commits env.trie db root t)
    (h : traverse env net rounds key decode root path s = (.ok x, s')) :
    (match t.lookup (hexDigits path) with
      | none => x = none
      | some v => ∃ a, decode v = some a ∧ x = some a) ∨ ByteCollision env.trie.K s'.nodes db := by
  obtain ⟨v, hw, hx⟩ := traverse_ok h
  rcases walk_sound (fun p h => (hk p h).1) hv rounds root _ s s' t v hg hc hw with h1 | h1
  · left; rw [h1]; exact hx
  · exact .inr h1

theorem traverse_complete {α : Type} {env : Env} {net : Network} {rounds : Nat} {key : List UInt8 → Id → State}
    {decode : Bytes → Option α} {root path : Id} {s : Reader} {x : Option α} {db : List Bytes} {t : PTrie}
    (hk : TrieKey key) (hs : Serves env net key db root) (hb : NoBareHash env) (hp : Plain env s key db root)
    (hc : Commits env.trie db root t) (hw : t.NoEmptyKeys) (hr : 65 ≤ rounds)
    (hx : match t.lookup (hexDigits path) with
      | none => x = none
      | some v => ∃ a, decode v = some a ∧ x = some a) :
    ∃ s', traverse env net rounds key decode root path s = (.ok x, s') := by
  cases hc with
  | hash b n t hm hd hrep =>
    obtain ⟨s', h⟩ := walk_complete hk hs hb (Nat.le_of_eq (digits_length path)) (digits_lt path) rounds []
      (hexDigits path) s b n t hp rfl (.here b hm) hd hrep hw (by rw [digits_length]; omega)
    refine ⟨s', ?_⟩
    simp only [traverse, unpack_hash, h]
    cases hl : t.lookup (hexDigits path) with
    | none => rw [hl] at hx; simp only at hx ⊢; rw [hx]
    | some v =>
      rw [hl] at hx
      obtain ⟨a, ha, rfl⟩ := hx
      simp only [ha]

theorem traverse_safe {α : Type} (env : Env) (net : Network) (rounds : Nat) (key : List UInt8 → Id → State)
    (decode : Bytes → Option α) (root path : Id) (s : Reader) :
    (traverse env net rounds key decode root path s).1 ≠ .error .panic ∧
    (NoBareHash env → 65 ≤ rounds → (traverse env net rounds key decode root path s).1 ≠ .error .running) := by
  have h := walk_safe (env := env) (net := net) (key := key) (Nat.le_of_eq (digits_length path)) (digits_lt path)
    rounds root [] (hexDigits path) s rfl
  rw [digits_length] at h
  simp only [traverse, unpack_hash]
  split
  · next e s' hw =>
    rw [hw] at h
    simp only [ne_eq, Except.error.injEq] at h ⊢
    exact ⟨h.1, fun hb hr => h.2 hb (by omega)⟩
  · simp
  · split <;> simp

theorem traverse_again {α : Type} {env : Env} {net : Network} {rounds : Nat} {key : List UInt8 → Id → State}
    {decode : Bytes → Option α} {root path : Id} {s s' : Reader} {x : Option α}
    (h : traverse env net rounds key decode root path s = (.ok x, s')) (net' : Network) {s'' : Reader}
    (hx : Extends s' s'') : traverse env net' rounds key decode root path s'' = (.ok x, s'') := by
  obtain ⟨v, hw, hv⟩ := traverse_ok h
  simp only [traverse, unpack_hash, walk_again rounds root _ s s' v hw net' s'' hx]
  cases v with
  | none => simp only at hv ⊢; rw [hv]
  | some v => obtain ⟨a, ha, rfl⟩ := hv; simp only [ha]

/-! ## Owners -/

theorem addOwner_extends (env : Env) (s : Reader) (a : Account) (h : Id) :
    Extends s (s.addOwner env a h) ∧ (s.addOwner env a h).cache = s.cache := by
  unfold Reader.addOwner
  split
  · exact ⟨.refl s, rfl⟩
  · split
    · exact ⟨.refl s, rfl⟩
    · next hn =>
      refine ⟨⟨fun _ _ h => h, fun k v h => ?_, fun _ h => h⟩, rfl⟩
      rw [find_cons]
      split
      · next e => rw [e, h] at hn; cases hn
      · exact h

theorem accountState_ok {env : Env} {net : Network} {rounds : Nat} {root ah : Id} {s s' : Reader}
    {x : Option Account} (h : accountState env net rounds root ah s = (.ok x, s')) :
    ∃ s1, traverse env net rounds .accountTrieNode env.trie.decodeAccount root ah s = (.ok x, s1) ∧
      s' = (match x with | none => s1 | some a => s1.addOwner env a ah) := by
  unfold accountState at h
  split at h
  · next a s1 ht => cases h; exact ⟨s1, ht, rfl⟩
  · next hne =>
    cases x with
    | none => exact ⟨s', h, rfl⟩
    | some a => exact absurd h (hne a s')

theorem accountState_fst (env : Env) (net : Network) (rounds : Nat) (root ah : Id) (s : Reader) :
    (accountState env net rounds root ah s).1 =
      (traverse env net rounds .accountTrieNode env.trie.decodeAccount root ah s).1 := by
  unfold accountState
  split
  · next h => rw [h]
  · rfl

/-- The cache and the owners after an account read. -/
theorem accountState_state (env : Env) (net : Network) (rounds : Nat) (root ah : Id) (s : Reader) :
    Extends s (accountState env net rounds root ah s).2 ∧
    (accountState env net rounds root ah s).2.cache =
      (traverse env net rounds .accountTrieNode env.trie.decodeAccount root ah s).2.cache := by
  have hw := walk_state env net .accountTrieNode (hexDigits ah) rounds root (hexDigits ah) s
  rw [← traverse_snd (decode := env.trie.decodeAccount)] at hw
  unfold accountState
  split
  · next a s1 h =>
    rw [h] at hw
    have := addOwner_extends env s1 a ah
    exact ⟨hw.1.trans this.1, by rw [this.2, h]⟩
  · exact ⟨hw.1, rfl⟩

theorem Good.congr {env : Env} {s s' : Reader} (h : s'.cache = s.cache) (hg : Good env s) : Good env s' := by
  unfold Good; rw [h]; exact hg

theorem Plain.congr {env : Env} {s s' : Reader} {key : List UInt8 → Id → State} {db : List Bytes} {root : Id}
    (h : s'.cache = s.cache) (hg : Plain env s key db root) : Plain env s' key db root := by
  unfold Plain; rw [h]; exact hg

theorem accountState_good {env : Env} {net : Network} (hv : Validated env net) {s : Reader} (hg : Good env s)
    (rounds : Nat) (root ah : Id) : Good env (accountState env net rounds root ah s).2 := by
  refine Good.congr (accountState_state env net rounds root ah s).2 ?_
  rw [traverse_snd]
  exact (walk_state env net _ _ rounds root _ s).2.2 hv hg

theorem accountState_plain {env : Env} {net : Network} {key : List UInt8 → Id → State} {db : List Bytes} {r : Id}
    (hk : TrieKey key) (hs : Serves env net key db r) {s : Reader} (hp : Plain env s key db r)
    (rounds : Nat) (root ah : Id) : Plain env (accountState env net rounds root ah s).2 key db r := by
  refine Plain.congr (accountState_state env net rounds root ah s).2 ?_
  rw [traverse_snd]
  exact walk_plain hk hs rounds root _ s hp

theorem storageAt_snd (env : Env) (net : Network) (rounds : Nat) (root ah : Id) (slot : BitVec 256) (s : Reader) :
    (storageAtSlot env net rounds root ah slot s).2 =
      (traverse env net rounds (.storageTrieNode ah) env.decodeBytes root (env.trie.K (Id.bytes slot)) s).2 := by
  unfold storageAtSlot
  split
  · next h => rw [h]
  · next h => rw [h]; simp only; split <;> rfl

theorem code_snd (net : Network) (ah ch : Id) (s : Reader) :
    (contractBytecode net ah ch s).2 = (fetchContent net s (.bytecode ah ch)).2 := by
  unfold contractBytecode
  split <;> next h => rw [h]

theorem storageAt_state (env : Env) (net : Network) (rounds : Nat) (root ah : Id) (slot : BitVec 256) (s : Reader) :
    Extends s (storageAtSlot env net rounds root ah slot s).2 ∧
    (storageAtSlot env net rounds root ah slot s).2.owners = s.owners ∧
    (Validated env net → Good env s → Good env (storageAtSlot env net rounds root ah slot s).2) := by
  rw [storageAt_snd, traverse_snd]
  exact walk_state env net _ _ rounds root _ s

/-- Facts about every request: the reader only grows, and keeps holding what the keys name. -/
theorem after_state (env : Env) (rounds : Nat) (root : Id) (net : Network) (s : Reader) (r : Request) :
    Extends s (r.after env rounds root net s) ∧
    (Validated env net → Good env s → Good env (r.after env rounds root net s)) := by
  cases r with
  | basic a =>
    exact ⟨(accountState_state env net rounds root _ s).1, fun hv hg => accountState_good hv hg rounds root _⟩
  | code h =>
    simp only [Request.after, codeByHash]
    split
    · exact ⟨.refl s, fun _ h => h⟩
    · split
      · exact ⟨.refl s, fun _ h => h⟩
      · rw [code_snd]
        exact ⟨(fetchContent_extends net s _).1, fun hv hg => fetchContent_good hv hg _⟩
  | storage a i =>
    have h1 := (accountState_state env net rounds root (env.trie.K a) s).1
    have h2 := fun (hv : Validated env net) (hg : Good env s) => accountState_good hv hg rounds root (env.trie.K a)
    simp only [Request.after, storage]
    split
    · next h => rw [h] at h1 h2; exact ⟨h1, h2⟩
    · next h => rw [h] at h1 h2; exact ⟨h1, h2⟩
    · next x s1 h =>
      rw [h] at h1 h2
      have h3 := storageAt_state env net rounds x.storageRoot (env.trie.K a) i s1
      exact ⟨h1.trans h3.1, fun hv hg => h3.2.2 hv (h2 hv hg)⟩

theorem run_good {env : Env} {rounds : Nat} {root : Id} : ∀ (past : List (Network × Request)),
    (∀ e ∈ past, Validated env e.1) → Good env (run env rounds root past)
  | [], _ => by intro e he; cases he
  | (net, r) :: past, h => by
    exact (after_state env rounds root net _ r).2 (h (net, r) (by simp)) (run_good past (fun e he => h e (by simp [he])))

theorem run_extends (env : Env) (rounds : Nat) (root : Id) (past : List (Network × Request)) :
    ∀ later, Extends (run env rounds root past) (run env rounds root (later ++ past))
  | [] => .refl _
  | (net, r) :: later => (run_extends env rounds root past later).trans (after_state env rounds root net _ r).1

theorem after_plain {env : Env} {net : Network} {key : List UInt8 → Id → State} {db : List Bytes} {tr : Id}
    (hk : TrieKey key) (hs : Serves env net key db tr) {s : Reader} (hp : Plain env s key db tr)
    (rounds : Nat) (root : Id) (r : Request) : Plain env (r.after env rounds root net s) key db tr := by
  cases r with
  | basic a => exact accountState_plain hk hs hp rounds root _
  | code h =>
    simp only [Request.after, codeByHash]
    split
    · exact hp
    · split
      · exact hp
      · rw [code_snd]; exact fetchContent_plain hk hs hp _
  | storage a i =>
    have h1 := accountState_plain hk hs hp rounds root (env.trie.K a)
    simp only [Request.after, storage]
    split
    · next h => rw [h] at h1; exact h1
    · next h => rw [h] at h1; exact h1
    · next x s1 h =>
      rw [h] at h1
      rw [storageAt_snd, traverse_snd]
      exact walk_plain hk hs rounds _ _ _ h1

theorem run_plain {env : Env} {rounds : Nat} {root : Id} {key : List UInt8 → Id → State} {db : List Bytes} {tr : Id}
    (hk : TrieKey key) : ∀ (past : List (Network × Request)),
    (∀ e ∈ past, Serves env e.1 key db tr) → Plain env (run env rounds root past) key db tr
  | [], _ => by intro p b _ v h; cases h
  | (net, r) :: past, h =>
    after_plain hk (h (net, r) (by simp)) (run_plain hk past (fun e he => h e (by simp [he]))) rounds root r

end Verif.EvmState

namespace Verif.EvmState
open Verif.Trie Verif.StateContent Verif.Props
open Verif.ContentKey (State)

/-- Every code hash that the reader knows is the code hash of the account it is filed under. -/
def Owned (env : Env) (state : PTrie) (s : Reader) : Prop :=
  ∀ h ah, find s.owners h = some ah → h ≠ env.keccakEmpty ∧ ∃ a, AccountIs env state ah (some a) ∧ a.codeHash = h

theorem accountState_owned {env : Env} {net : Network} {rounds : Nat} {root : Id} {db : List Bytes} {state : PTrie}
    (hc : Commits env.trie db root state) (hv : Validated env net) {s : Reader} (hg : Good env s)
    (ho : Owned env state s) (ah : Id) :
    Owned env state (accountState env net rounds root ah s).2 ∨
      ByteCollision env.trie.K (accountState env net rounds root ah s).2.nodes db := by
  have hw := walk_state env net .accountTrieNode (hexDigits ah) rounds root (hexDigits ah) s
  rw [← traverse_snd (decode := env.trie.decodeAccount)] at hw
  unfold accountState
  split
  · next a s1 ht =>
    rw [ht] at hw
    rcases traverse_sound trieKey_account hv hg hc ht with h1 | h1
    · left
      have ho1 : Owned env state s1 := by unfold Owned; rw [hw.2.1]; exact ho
      unfold Reader.addOwner
      split
      · exact ho1
      · next hne =>
        split
        · exact ho1
        · intro h ah' hf
          rw [find_cons] at hf
          split at hf
          · next e =>
            cases hf
            subst e
            refine ⟨hne, a, ?_, rfl⟩
            cases hl : state.lookup (hexDigits ah) with
            | none => rw [hl] at h1; cases h1
            | some v =>
              rw [hl] at h1
              obtain ⟨a', ha', e⟩ := h1
              cases e
              exact ⟨v, hl, ha'⟩
          · exact ho1 h ah' hf
    · right
      simp only [Reader.nodes]
      rw [(addOwner_extends env s1 a ah).2]
      exact h1
  · left
    unfold Owned
    rw [hw.2.1]
    exact ho

theorem run_owned {env : Env} {rounds : Nat} {root : Id} {db : List Bytes} {state : PTrie}
    (hc : Commits env.trie db root state) : ∀ (past : List (Network × Request)),
    (∀ e ∈ past, Validated env e.1) → Owned env state (run env rounds root past) ∨
      ByteCollision env.trie.K (run env rounds root past).nodes db
  | [], _ => .inl (by intro h ah hf; cases hf)
  | (net, r) :: past, hv => by
    have hpv : ∀ e ∈ past, Validated env e.1 := fun e he => hv e (by simp [he])
    have hnv : Validated env net := hv (net, r) (by simp)
    have hg := run_good (rounds := rounds) (root := root) past hpv
    have hext := (after_state env rounds root net (run env rounds root past) r).1
    rcases run_owned hc past hpv with h1 | h1
    · cases r with
      | basic a => exact accountState_owned hc hnv hg h1 _
      | code h =>
        left
        simp only [run, Request.after, codeByHash]
        split
        · exact h1
        · split
          · exact h1
          · rw [code_snd]
            unfold Owned
            rw [(fetchContent_extends net _ _).2]
            exact h1
      | storage a i =>
        have h2 := accountState_owned (rounds := rounds) hc hnv hg h1 (env.trie.K a)
        simp only [run, Request.after, storage] at hext ⊢
        split
        · next h => rw [h] at h2; exact h2
        · next h => rw [h] at h2; exact h2
        · next x s1 h =>
          rw [h] at h2
          have h3 := storageAt_state env net rounds x.storageRoot (env.trie.K a) i s1
          rcases h2 with h2 | h2
          · left; unfold Owned; rw [h3.2.1]; exact h2
          · right; exact h2.mono h3.1.2.2 (fun _ h => h)
    · exact .inr (h1.mono hext.2.2 (fun _ h => h))

/-- For the accounts of the state, the reader has nothing but codes without proof. -/
def PlainCode (env : Env) (s : Reader) (state : PTrie) : Prop :=
  ∀ ah a, AccountIs env state ah (some a) → a.codeHash ≠ env.keccakEmpty →
    ∀ v, find s.cache (.bytecode ah a.codeHash) = some v → ∃ c, v = .bytecode c

theorem fetchContent_plainCode {env : Env} {net : Network} {state : PTrie} (hs : ServesCode env net state) {s : Reader}
    (hp : PlainCode env s state) (k : ContentKey.State) : PlainCode env (fetchContent net s k).2 state := by
  unfold fetchContent
  split
  · exact hp
  · split
    · exact hp
    · next bs hb =>
      split
      · exact hp
      · next v hd =>
        intro ah a ha hne v' hv'
        rw [find_cons] at hv'
        split at hv'
        · next e =>
          obtain ⟨c, h1, _, h2⟩ := hs ah a ha hne
          rw [e, h2] at hb
          cases hb
          rw [e, C51_state_roundtrip _ _ (.bytecode ah a.codeHash c h1)] at hd
          cases hd
          cases hv'
          exact ⟨c, rfl⟩
        · exact hp ah a ha hne v' hv'

theorem PlainCode.congr {env : Env} {s s' : Reader} {state : PTrie} (h : s'.cache = s.cache)
    (hp : PlainCode env s state) : PlainCode env s' state := by
  unfold PlainCode; rw [h]; exact hp

theorem walk_plainCode {env : Env} {net : Network} {key : List UInt8 → Id → ContentKey.State} {path : List UInt8}
    {state : PTrie} (hs : ServesCode env net state) :
    ∀ (rounds : Nat) (node : Id) (rem : List UInt8) (s : Reader), PlainCode env s state →
    PlainCode env (walk env net key path rounds node rem s).2 state
  | 0, node, rem, s, hp => hp
  | rounds + 1, node, rem, s, hp => by
    simp only [walk]
    split
    · exact hp
    · next pre _ =>
      have h1 := fetchContent_plainCode hs hp (key pre node)
      rw [← fetchNode_snd env] at h1
      split
      · next hf => rw [hf] at h1; exact h1
      · next hf =>
        rw [hf] at h1
        split
        · exact h1
        · exact h1
        · exact walk_plainCode hs rounds _ _ _ h1
        · exact h1
        · exact h1

theorem run_plainCode {env : Env} {rounds : Nat} {root : Id} {state : PTrie} : ∀ (past : List (Network × Request)),
    (∀ e ∈ past, ServesCode env e.1 state) → PlainCode env (run env rounds root past) state
  | [], _ => by intro ah a _ _ v h; cases h
  | (net, r) :: past, h => by
    have hp := run_plainCode (rounds := rounds) (root := root) past (fun e he => h e (by simp [he]))
    have hs : ServesCode env net state := h (net, r) (by simp)
    cases r with
    | basic a =>
      refine PlainCode.congr (accountState_state env net rounds root _ _).2 ?_
      rw [traverse_snd]
      exact walk_plainCode hs rounds _ _ _ hp
    | code h =>
      simp only [run, Request.after, codeByHash]
      split
      · exact hp
      · split
        · exact hp
        · rw [code_snd]; exact fetchContent_plainCode hs hp _
    | storage a i =>
      have h1 : PlainCode env (accountState env net rounds root (env.trie.K a) (run env rounds root past)).2 state := by
        refine PlainCode.congr (accountState_state env net rounds root _ _).2 ?_
        rw [traverse_snd]
        exact walk_plainCode hs rounds _ _ _ hp
      simp only [run, Request.after, storage]
      split
      · next h => rw [h] at h1; exact h1
      · next h => rw [h] at h1; exact h1
      · next x s1 h =>
        rw [h] at h1
        rw [storageAt_snd, traverse_snd]
        exact walk_plainCode hs rounds _ _ _ h1

theorem walk_keys (env : Env) (net : Network) (key : List UInt8 → Id → State) (path : List UInt8) :
    ∀ (rounds : Nat) (node : Id) (rem : List UInt8) (s : Reader) (k : State) (v : Value),
    find (walk env net key path rounds node rem s).2.cache k = some v →
    find s.cache k = some v ∨ ∃ p h, k = key p h
  | 0, node, rem, s, k, v, h => .inl h
  | rounds + 1, node, rem, s, k, v, h => by
    simp only [walk] at h
    split at h
    · exact .inl h
    · next pre _ =>
      have hf : ∀ v, find (fetchNode env net s (key pre node)).2.cache k = some v →
          find s.cache k = some v ∨ ∃ p h, k = key p h := by
        intro v hv
        rw [fetchNode_snd] at hv
        unfold fetchContent at hv
        split at hv
        · exact .inl hv
        · split at hv
          · exact .inl hv
          · split at hv
            · exact .inl hv
            · rw [find_cons] at hv
              split at hv
              · next e => exact .inr ⟨pre, node, e.symm⟩
              · exact .inl hv
      split at h
      · next hn => rw [hn] at hf; exact hf _ h
      · next hn =>
        rw [hn] at hf
        split at h
        · exact hf _ h
        · exact hf _ h
        · rcases walk_keys env net key path rounds _ _ _ k v h with h1 | h1
          · exact hf _ h1
          · exact .inr h1
        · exact hf _ h
        · exact hf _ h

theorem accountState_keys (env : Env) (net : Network) (rounds : Nat) (root ah : Id) (s : Reader) (k : State) (v : Value)
    (h : find (accountState env net rounds root ah s).2.cache k = some v) :
    find s.cache k = some v ∨ ∃ p h, k = .accountTrieNode p h := by
  rw [(accountState_state env net rounds root ah s).2, traverse_snd] at h
  exact walk_keys env net _ _ rounds root _ s k v h

end Verif.EvmState
