import Verif.Props.TrieSpec
import Verif.Lemmas.Distance

namespace Verif.Trie

theorem stripPrefix_some : ∀ {p path r : List UInt8}, stripPrefix p path = some r → path = p ++ r
  | [], path, r, h => by simp only [stripPrefix, Option.some.injEq] at h; simpa using h
  | _ :: _, [], r, h => by simp [stripPrefix] at h
  | a :: p, b :: path, r, h => by
    simp only [stripPrefix] at h
    split at h
    · next e => rw [e, List.cons_append, stripPrefix_some h]
    · cases h

theorem stripPrefix_append : ∀ (p r : List UInt8), stripPrefix p (p ++ r) = some r
  | [], r => rfl
  | a :: p, r => by simp only [List.cons_append, stripPrefix, if_true]; exact stripPrefix_append p r

theorem lookup_extension_append (p r : List UInt8) (t : PTrie) :
    (PTrie.extension p t).lookup (p ++ r) = t.lookup r := by
  simp [PTrie.lookup]

theorem sub_nil (t : PTrie) : t.sub [] = some t := by cases t <;> rfl

theorem sub_extension_append (p r : List UInt8) (t : PTrie) (hp : p ≠ []) :
    (PTrie.extension p t).sub (p ++ r) = t.sub r := by
  cases p with
  | nil => exact absurd rfl hp
  | cons a p =>
    simp only [List.cons_append, PTrie.sub]
    rw [if_pos (by simp)]
    simp

/-- A traversal that ends at a hash leads to the subtrie of the consumed path. -/
theorem traverse_node {env : Env} {db : List Bytes} {n : Node} {t : PTrie} (h : Rep env db n t) :
    ∀ {path : List UInt8} {hash : Id} {r : List UInt8}, n.traverse path = .node hash r →
    ∃ c t', path = c ++ r ∧ Rep env db (.hash hash) t' ∧
      (∀ r', t.sub (c ++ r') = t'.sub r') ∧ (∀ r', t.lookup (c ++ r') = t'.lookup r') := by
  induction h with
  | empty => intro path hash r ht; simp [Node.traverse] at ht
  | leaf key v =>
    intro path hash r ht
    simp only [Node.traverse] at ht
    repeat' split at ht
    all_goals cases ht
  | extension pre n t _ ih =>
    intro path hash r ht
    simp only [Node.traverse] at ht
    split at ht
    · cases ht
    · next hpre =>
      split at ht
      · next rem hs =>
        obtain ⟨c, t', rfl, hr, h1, h2⟩ := ih ht
        refine ⟨pre ++ c, t', by rw [stripPrefix_some hs, List.append_assoc], hr, ?_, ?_⟩
        · intro r'
          rw [List.append_assoc, sub_extension_append pre _ t hpre, h1]
        · intro r'
          rw [List.append_assoc, lookup_extension_append, h2]
      · cases ht
  | branch ns ts v _ ih =>
    intro path hash r ht
    cases path with
    | nil =>
      simp only [Node.traverse] at ht
      split at ht <;> cases ht
    | cons first rem =>
      simp only [Node.traverse] at ht
      split at ht
      · next hlt =>
        obtain ⟨c, t', hp, hr, h1, h2⟩ := ih _ ht
        refine ⟨first :: c, t', by rw [hp, List.cons_append], hr, ?_, ?_⟩
        · intro r'
          simp only [List.cons_append, PTrie.sub, hlt, dif_pos]
          exact h1 r'
        · intro r'
          simp only [List.cons_append, PTrie.lookup, hlt, dif_pos]
          exact h2 r'
      · cases ht
  | hash b n t hb hd hr ih =>
    intro path hash r ht
    simp only [Node.traverse, Traversal.node.injEq] at ht
    obtain ⟨rfl, rfl⟩ := ht
    exact ⟨[], t, rfl, .hash b n t hb hd hr, fun _ => rfl, fun _ => rfl⟩

/-- A traversal that ends at a value gives the value stored under the path. -/
theorem traverse_value {env : Env} {db : List Bytes} {n : Node} {t : PTrie} (h : Rep env db n t) :
    ∀ {path : List UInt8} {v : Bytes}, n.traverse path = .value v → t.lookup path = some v := by
  induction h with
  | empty => intro path v ht; simp [Node.traverse] at ht
  | leaf key v =>
    intro path v' ht
    simp only [Node.traverse, List.getLast?_append, List.getLast?_singleton, Option.some_or,
      List.dropLast_concat] at ht
    repeat' split at ht
    all_goals first | cases ht; done | skip
    next h1 h2 h3 =>
    cases ht
    simp only [PTrie.lookup]
    rw [if_pos]
    apply Classical.byContradiction
    intro hne
    exact h3 (fun e => hne e.symm)
  | extension pre n t _ ih =>
    intro path v ht
    simp only [Node.traverse] at ht
    split at ht
    · cases ht
    · split at ht
      · next rem hs =>
        rw [stripPrefix_some hs, lookup_extension_append]
        exact ih ht
      · cases ht
  | branch ns ts v _ ih =>
    intro path v' ht
    cases path with
    | nil =>
      simp only [Node.traverse] at ht
      split at ht
      · cases ht; rfl
      · cases ht
    | cons first rem =>
      simp only [Node.traverse] at ht
      split at ht
      · next hlt =>
        simp only [PTrie.lookup, hlt, dif_pos]
        exact ih _ ht
      · cases ht
  | hash b n t hb hd hr ih =>
    intro path v ht
    simp [Node.traverse] at ht

/-- A node with the hash of a genuine node is that node, or collides with it. -/
theorem hash_inv {env : Env} {db : List Bytes} {h : Id} {t : PTrie} (hr : Rep env db (.hash h) t)
    {bytes : Bytes} (hb : env.K bytes = h) :
    (bytes ∈ db ∧ ∃ n, env.decode bytes = some n ∧ Rep env db n t) ∨
      ∃ b ∈ db, bytes ≠ b ∧ env.K bytes = env.K b := by
  cases hr with
  | hash b n t hm hd hr =>
    by_cases e : bytes = b
    · subst e; exact Or.inl ⟨hm, n, hd, hr⟩
    · exact Or.inr ⟨b, hm, e, hb⟩

theorem ByteCollision.mono {K : Bytes → Id} {A B A' B' : List Bytes} (h : ByteCollision K A B)
    (ha : A ⊆ A') (hb : B ⊆ B') : ByteCollision K A' B' := by
  obtain ⟨p, hp, q, hq, h⟩ := h
  exact ⟨p, ha hp, q, hb hq, h⟩

/-- Following a proof from a genuine node. -/
theorem follow_sound {env : Env} {db : List Bytes} : ∀ (rest : List Bytes) (node : Bytes)
    (path : List UInt8) (t : PTrie) (n : Node) (last : Bytes) (r : List UInt8),
    node ∈ db → env.decode node = some n → Rep env db n t →
    follow env node path rest = .ok (last, r) →
    (∃ c t' n', path = c ++ r ∧ last ∈ db ∧ env.decode last = some n' ∧ Rep env db n' t' ∧
      (∀ r', t.sub (c ++ r') = t'.sub r') ∧ (∀ r', t.lookup (c ++ r') = t'.lookup r')) ∨
    ByteCollision env.K rest db := by
  intro rest
  induction rest with
  | nil =>
    intro node path t n last r hm hd hr hf
    simp only [follow, Except.ok.injEq, Prod.mk.injEq] at hf
    obtain ⟨rfl, rfl⟩ := hf
    exact Or.inl ⟨[], t, n, rfl, hm, hd, hr, fun _ => rfl, fun _ => rfl⟩
  | cons next rest ih =>
    intro node path t n last r hm hd hr hf
    simp only [follow, nextNode, hd] at hf
    split at hf
    · cases hf
    · next hh rr hn =>
      split at hn <;> try cases hn
      next ht =>
      unfold checkNodeHash at hf
      split at hf <;> try cases hf
      next hc =>
      split at hc <;> try cases hc
      next hk =>
      obtain ⟨c, t', rfl, hr', h1, h2⟩ := traverse_node hr ht
      rcases hash_inv hr' hk with ⟨hm', n', hd', hrep'⟩ | ⟨b, hb, hne, hkk⟩
      · rcases ih next _ t' n' last r hm' hd' hrep' hf with
          ⟨c', t'', n'', hp, hl, hd'', hrep'', g1, g2⟩ | hcol
        · left
          refine ⟨c ++ c', t'', n'', by rw [hp, List.append_assoc], hl, hd'', hrep'', ?_, ?_⟩
          · intro r'; rw [List.append_assoc, h1, g1]
          · intro r'; rw [List.append_assoc, h2, g2]
        · exact Or.inr (hcol.mono (by intro x hx; simp [hx]) (fun _ h => h))
      · exact Or.inr ⟨next, by simp, b, hb, hne, hkk⟩

theorem unpackAll_lt : ∀ (bs : Bytes), ∀ n ∈ Nibbles.unpackAll bs, n.toNat < 16
  | [], n, h => by simp [Nibbles.unpackAll] at h
  | b :: bs, n, h => by
    simp only [Nibbles.unpackAll, List.mem_cons] at h
    rcases h with rfl | rfl | h
    · have : ∀ x : UInt8, (Nibbles.unpackPair x).1.toNat < 16 := by
        intro x
        simp only [Nibbles.unpackPair, UInt8.toNat_shiftRight]
        have := x.toNat_lt
        simp [Nat.shiftRight_eq_div_pow]
        omega
      exact this b
    · have : ∀ x : UInt8, (Nibbles.unpackPair x).2.toNat < 16 := by
        intro x
        simp only [Nibbles.unpackPair, UInt8.toNat_and]
        exact Nat.lt_of_le_of_lt Nat.and_le_right (by decide)
      exact this b
    · exact unpackAll_lt bs n h

theorem traverse_no_panic : ∀ (n : Node) (path : List UInt8), (∀ x ∈ path, x.toNat < 16) →
    n.traverse path ≠ .panic ∧ ∀ h r, n.traverse path = .node h r → ∀ x ∈ r, x.toNat < 16
  | .empty, path, _ => by simp [Node.traverse]
  | .leaf key v, path, _ => by
    simp only [Node.traverse]
    repeat' split
    all_goals simp
  | .extension pre n, path, hp => by
    simp only [Node.traverse]
    split
    · simp
    · split
      · next rem hs =>
        exact traverse_no_panic n rem (fun x hx => hp x (by rw [stripPrefix_some hs]; simp [hx]))
      · simp
  | .branch cs v, [], _ => by
    simp only [Node.traverse]
    split <;> simp
  | .branch cs v, a :: path, hp => by
    simp only [Node.traverse]
    rw [dif_pos (hp a (by simp))]
    exact traverse_no_panic (cs _) path (fun x hx => hp x (by simp [hx]))
  | .hash h, path, hp => by
    simp only [Node.traverse]
    refine ⟨by simp, ?_⟩
    intro h' r e
    cases e
    exact hp

theorem follow_no_panic (env : Env) : ∀ (rest : List Bytes) (node : Bytes) (path : List UInt8),
    (∀ x ∈ path, x.toNat < 16) → follow env node path rest ≠ .error .panic ∧
      ∀ last r, follow env node path rest = .ok (last, r) → ∀ x ∈ r, x.toNat < 16
  | [], node, path, hp => by
    simp only [follow]
    refine ⟨by simp, ?_⟩
    intro last r e; cases e; exact hp
  | next :: rest, node, path, hp => by
    simp only [follow, nextNode]
    cases hd : env.decode node with
    | none => simp
    | some n =>
      obtain ⟨h1, h2⟩ := traverse_no_panic n path hp
      simp only
      cases ht : n.traverse path with
      | empty i => simp
      | value v => simp
      | error e => simp
      | panic => exact absurd ht h1
      | node h r =>
        simp only [checkNodeHash]
        split
        · next hh => split at hh <;> cases hh; simp
        · exact follow_no_panic env rest next r (h2 h r ht)

end Verif.Trie

namespace Verif.Trie

theorem unpackAll_append (a b : Bytes) :
    Nibbles.unpackAll (a ++ b) = Nibbles.unpackAll a ++ Nibbles.unpackAll b := by
  induction a with
  | nil => rfl
  | cons x a ih => simp only [List.cons_append, Nibbles.unpackAll, ih]

theorem unpackAll_toBe : ∀ (n v : Nat), Nibbles.unpackAll (toBe n v) =
    (List.range (2 * n)).map fun i => UInt8.ofNat (v / 16 ^ (2 * n - 1 - i) % 16)
  | 0, v => rfl
  | n + 1, v => by
    rw [toBe, unpackAll_append, unpackAll_toBe n (v / 256), show 2 * (n + 1) = 2 * n + 1 + 1 by omega,
      List.range_succ, List.range_succ, List.map_append, List.map_append, List.append_assoc]
    congr 1
    · apply List.map_congr_left
      intro i hi
      have hi' : i < 2 * n := by simpa using hi
      have e : 2 * n + 1 + 1 - 1 - i = 2 + (2 * n - 1 - i) := by omega
      rw [e, Nat.pow_add, ← Nat.div_div_eq_div_mul]
    · have h1 : 2 * n + 1 + 1 - 1 - 2 * n = 1 := by omega
      have h2 : 2 * n + 1 + 1 - 1 - (2 * n + 1) = 0 := by omega
      simp only [Nibbles.unpackAll, Nibbles.unpackPair, List.map_cons, List.map_nil, h1, h2,
        List.cons_append, List.nil_append]
      congr 1
      · apply UInt8.toNat.inj
        simp only [UInt8.toNat_shiftRight, UInt8.toNat_ofNat', Nat.shiftRight_eq_div_pow]
        simp
        omega
      · congr 1
        apply UInt8.toNat.inj
        simp only [UInt8.toNat_and, UInt8.toNat_ofNat', Nat.pow_zero, Nat.div_one]
        have : (15 : UInt8).toNat = 2 ^ 4 - 1 := rfl
        rw [this, Nat.and_two_pow_sub_one_eq_mod]
        omega

theorem unpack_hash (h : Id) : Nibbles.unpackAll h.bytes = hexDigits h := by
  rw [Id.bytes, unpackAll_toBe]
  rfl

/-- What is left of a proof, from the node with this hash. -/
def Rest (env : Env) (db : List Bytes) (h : Id) (path : List UInt8) (v : Bytes) : Prop :=
  ∃ first rest last r n, env.K first = h ∧ first ∈ db ∧ rest ⊆ db ∧
    follow env first path rest = .ok (last, r) ∧ env.decode last = some n ∧ n.traverse r = .value v ∧
    ((∀ b ∈ db, ∀ h, env.decode b ≠ some (.hash h)) → rest.length ≤ path.length)

theorem rest_exists {env : Env} {db : List Bytes} {n : Node} {t : PTrie} (h : Rep env db n t) :
    t.NoEmptyKeys → ∀ (path : List UInt8) (v : Bytes), t.lookup path = some v →
    n.traverse path = .value v ∨
    ∃ h r, n.traverse path = .node h r ∧ Rest env db h r v ∧
      ((∀ h, n ≠ .hash h) → r.length < path.length) := by
  induction h with
  | empty => intro _ path v hl; simp [PTrie.lookup] at hl
  | leaf key v =>
    intro hw path v' hl
    cases hw with
    | leaf _ _ hk =>
      simp only [PTrie.lookup] at hl
      split at hl
      · next e =>
        subst e; cases hl
        left
        simp [Node.traverse, hk]
      · cases hl
  | extension pre n t _ ih =>
    intro hw path v hl
    cases hw with
    | extension _ _ hp hw =>
      simp only [PTrie.lookup] at hl
      split at hl
      · next hpre =>
        obtain ⟨r, rfl⟩ := hpre
        rw [List.drop_left] at hl
        have ht : (Node.extension pre n).traverse (pre ++ r) = n.traverse r := by
          simp [Node.traverse, hp, stripPrefix_append]
        rw [ht]
        rcases ih hw r v hl with h1 | ⟨h, r', h1, h2, h3⟩
        · exact Or.inl h1
        · refine Or.inr ⟨h, r', h1, h2, fun _ => ?_⟩
          have : 0 < pre.length := by
            cases pre with
            | nil => exact absurd rfl hp
            | cons => simp
          by_cases hh : ∃ h, n = .hash h
          · obtain ⟨h', rfl⟩ := hh
            simp only [Node.traverse, Traversal.node.injEq] at h1
            rw [← h1.2]; simp; omega
          · have := h3 (fun h e => hh ⟨h, e⟩)
            simp; omega
      · cases hl
  | branch ns ts v _ ih =>
    intro hw path v' hl
    cases hw with
    | branch _ _ hw =>
      cases path with
      | nil =>
        simp only [PTrie.lookup] at hl
        left
        simp [Node.traverse, hl]
      | cons a path =>
        simp only [PTrie.lookup] at hl
        split at hl
        · next hlt =>
          have ht : (Node.branch ns v).traverse (a :: path) = (ns ⟨a.toNat, hlt⟩).traverse path := by
            simp [Node.traverse, hlt]
          rw [ht]
          rcases ih _ (hw _) path v' hl with h1 | ⟨h, r', h1, h2, h3⟩
          · exact Or.inl h1
          · refine Or.inr ⟨h, r', h1, h2, fun _ => ?_⟩
            by_cases hh : ∃ h, ns ⟨a.toNat, hlt⟩ = .hash h
            · obtain ⟨h', e⟩ := hh
              rw [e] at h1
              simp only [Node.traverse, Traversal.node.injEq] at h1
              rw [← h1.2]; simp
            · have := h3 (fun h e => hh ⟨h, e⟩)
              simp; omega
        · cases hl
  | hash b n t hb hd hr ih =>
    intro hw path v hl
    right
    refine ⟨env.K b, path, rfl, ?_, fun h => absurd rfl (h _)⟩
    rcases ih hw path v hl with h1 | ⟨h, r', h1, ⟨first, rest, last, r, n', k1, k2, k3, k4, k5, k6, k7⟩, h3⟩
    · exact ⟨b, [], b, path, n, rfl, hb, by simp, rfl, hd, h1, fun _ => by simp⟩
    · refine ⟨b, first :: rest, last, r, n', rfl, hb, ?_, ?_, k5, k6, ?_⟩
      · intro x hx
        rcases List.mem_cons.mp hx with rfl | hx
        · exact k2
        · exact k3 hx
      · simp only [follow, nextNode, hd, h1, checkNodeHash, k1, if_true]
        exact k4
      · intro hno
        have h4 := k7 hno
        have h5 := h3 (fun h e => hno b hb h (by rw [hd, e]))
        simp; omega

/-- A proof followed twice from nodes with the same hash. -/
theorem follow_unique {env : Env} : ∀ (p₁ p₂ : List Bytes) (n₁ n₂ : Bytes) (path : List UInt8)
    (l₁ l₂ : Bytes) (r₁ r₂ : List UInt8) (v₁ v₂ : Bytes), env.K n₁ = env.K n₂ →
    follow env n₁ path p₁ = .ok (l₁, r₁) → follow env n₂ path p₂ = .ok (l₂, r₂) →
    valueAt env l₁ r₁ = .ok v₁ → valueAt env l₂ r₂ = .ok v₂ →
    v₁ = v₂ ∨ ByteCollision env.K (n₁ :: p₁) (n₂ :: p₂)
  | p₁, p₂, n₁, n₂, path, l₁, l₂, r₁, r₂, v₁, v₂, hk, f₁, f₂, g₁, g₂ => by
    by_cases e : n₁ = n₂
    · subst e
      match p₁, p₂ with
      | [], [] =>
        simp only [follow, Except.ok.injEq, Prod.mk.injEq] at f₁ f₂
        obtain ⟨rfl, rfl⟩ := f₁
        obtain ⟨rfl, rfl⟩ := f₂
        rw [g₁] at g₂
        exact Or.inl (Except.ok.inj g₂)
      | [], b :: q₂ =>
        simp only [follow, Except.ok.injEq, Prod.mk.injEq] at f₁ f₂
        obtain ⟨rfl, rfl⟩ := f₁
        simp only [valueAt, nextNode] at g₁ f₂
        cases hd : env.decode n₁ with
        | none => rw [hd] at g₁; cases g₁
        | some n =>
          rw [hd] at g₁ f₂
          simp only at g₁ f₂
          cases ht : n.traverse path <;> rw [ht] at g₁ f₂ <;> first | cases g₁; done | cases f₂; done | skip
      | a :: q₁, [] =>
        simp only [follow, Except.ok.injEq, Prod.mk.injEq] at f₁ f₂
        obtain ⟨rfl, rfl⟩ := f₂
        simp only [valueAt, nextNode] at g₂ f₁
        cases hd : env.decode n₁ with
        | none => rw [hd] at g₂; cases g₂
        | some n =>
          rw [hd] at g₂ f₁
          simp only at g₂ f₁
          cases ht : n.traverse path <;> rw [ht] at g₂ f₁ <;> first | cases g₂; done | cases f₁; done | skip
      | a :: q₁, b :: q₂ =>
        simp only [follow] at f₁ f₂
        cases hn : nextNode env n₁ path with
        | error e => rw [hn] at f₁; cases f₁
        | ok hr =>
          obtain ⟨h, r⟩ := hr
          rw [hn] at f₁ f₂
          simp only [checkNodeHash] at f₁ f₂
          split at f₁ <;> try cases f₁
          split at f₂ <;> try cases f₂
          next k₁ _ k₂ =>
          split at k₁ <;> cases k₁
          split at k₂ <;> cases k₂
          next k₁ k₂ =>
          rcases follow_unique q₁ q₂ a b r l₁ l₂ r₁ r₂ v₁ v₂ (k₁.trans k₂.symm) f₁ f₂ g₁ g₂ with h1 | h1
          · exact Or.inl h1
          · exact Or.inr (h1.mono (by intro x hx; simp at hx; simp [hx]) (by intro x hx; simp at hx; simp [hx]))
    · exact Or.inr ⟨n₁, by simp, n₂, by simp, e, hk⟩

end Verif.Trie

namespace Verif.Trie

theorem stored_proof {env : Env} {db : List Bytes} {n : Node} {path : List UInt8} {b : Bytes}
    (h : StoredAt env db n path b) : ∃ h r first rest, n.traverse path = .node h r ∧
    env.K first = h ∧ first ∈ db ∧ rest ⊆ db ∧ follow env first r rest = .ok (b, []) := by
  induction h with
  | here b hb => exact ⟨env.K b, [], b, [], rfl, rfl, hb, by simp, rfl⟩
  | hash b' n path b hb hd _ ih =>
    obtain ⟨h, r, first, rest, h1, h2, h3, h4, h5⟩ := ih
    refine ⟨env.K b', path, b', first :: rest, rfl, rfl, hb, ?_, ?_⟩
    · intro x hx
      rcases List.mem_cons.mp hx with rfl | hx
      · exact h3
      · exact h4 hx
    · simp only [follow, nextNode, hd, h1, checkNodeHash, h2, if_true]
      exact h5
  | extension pre n path b hp _ ih =>
    obtain ⟨h, r, first, rest, h1, h2⟩ := ih
    refine ⟨h, r, first, rest, ?_, h2⟩
    simp only [Node.traverse, hp, if_false, stripPrefix_append]
    exact h1
  | branch ns v i path b _ ih =>
    obtain ⟨h, r, first, rest, h1, h2⟩ := ih
    refine ⟨h, r, first, rest, ?_, h2⟩
    have e : (UInt8.ofNat i.val).toNat = i.val := by
      rw [UInt8.toNat_ofNat']; omega
    have hlt : (UInt8.ofNat i.val).toNat < 16 := by rw [e]; exact i.isLt
    simp only [Node.traverse, hlt, dif_pos]
    have : (⟨(UInt8.ofNat i.val).toNat, hlt⟩ : Fin 16) = i := Fin.ext e
    rw [this]
    exact h1

theorem validateTrieProof_some {env : Env} {root : Id} {path : List UInt8} {proof : List Bytes}
    {x : Bytes × List UInt8} (h : validateTrieProof env (some root) path proof = .ok x) :
    ∃ first rest, proof = first :: rest ∧ env.K first = root ∧ follow env first path rest = .ok x := by
  cases proof with
  | nil => cases h
  | cons first rest =>
    simp only [validateTrieProof, checkNodeHash] at h
    split at h
    · cases h
    · next he =>
      split at he
      · next e => exact ⟨first, rest, rfl, e, h⟩
      · cases he

theorem validateTrieProof_none {env : Env} {path : List UInt8} {proof : List Bytes}
    {x : Bytes × List UInt8} (h : validateTrieProof env none path proof = .ok x) :
    ∃ first rest, proof = first :: rest ∧ validateTrieProof env (some (env.K first)) path proof = .ok x := by
  cases proof with
  | nil => cases h
  | cons first rest =>
    refine ⟨first, rest, rfl, ?_⟩
    simp only [validateTrieProof] at h
    simp only [validateTrieProof, checkNodeHash, if_true]
    exact h

end Verif.Trie

namespace Verif.Trie

theorem follow_last (env : Env) : ∀ (rest : List Bytes) (node : Bytes) (path : List UInt8) (last : Bytes)
    (r : List UInt8), follow env node path rest = .ok (last, r) → (node :: rest).getLast? = some last
  | [], node, path, last, r, h => by cases h; rfl
  | next :: rest, node, path, last, r, h => by
    simp only [follow] at h
    split at h
    · cases h
    · split at h
      · cases h
      · have := follow_last env rest next _ last r h
        rw [List.getLast?_cons_cons]
        exact this

theorem validateTrieProof_no_panic (env : Env) (root : Option Id) (path : List UInt8)
    (proof : List Bytes) (hp : ∀ n ∈ path, n.toNat < 16) :
    validateTrieProof env root path proof ≠ .error .panic ∧
      ∀ last r, validateTrieProof env root path proof = .ok (last, r) → ∀ x ∈ r, x.toNat < 16 := by
  cases proof with
  | nil => simp [validateTrieProof]
  | cons first rest =>
    have h := follow_no_panic env rest first path hp
    cases root with
    | none => exact h
    | some root =>
      simp only [validateTrieProof, checkNodeHash]
      by_cases e : env.K first = root
      · simp only [e, if_true]; exact h
      · simp [e]

end Verif.Trie
