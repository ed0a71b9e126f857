import Verif.Model.Merkle
import Verif.Props.MerkleSpec

namespace Verif.Merkle

/-- The siblings on the path of leaf `idx`, bottom-up. -/
def branchOf (H : Id → Id → Id) (idx : Nat) : Nat → (Nat → Id) → List Id
  | 0, _ => []
  | d + 1, f =>
    if idx / 2 ^ d % 2 = 1 then branchOf H idx d (fun i => f (2 ^ d + i)) ++ [treeRoot H d f]
    else branchOf H idx d f ++ [treeRoot H d fun i => f (2 ^ d + i)]

theorem bit_eq (n i : Nat) : (n >>> i) &&& 1 = n / 2 ^ i % 2 := by
  rw [Nat.and_one_is_mod, Nat.shiftRight_eq_div_pow]

theorem treeRoot_congr (H : Id → Id → Id) : ∀ (d : Nat) (f g : Nat → Id),
    (∀ i, i < 2 ^ d → f i = g i) → treeRoot H d f = treeRoot H d g
  | 0, f, g, h => h 0 (by simp)
  | d + 1, f, g, h => by
    have e : 2 ^ (d + 1) = 2 ^ d + 2 ^ d := by rw [Nat.pow_succ]; omega
    simp only [treeRoot]
    rw [treeRoot_congr H d f g (fun i hi => h i (by omega)),
      treeRoot_congr H d _ (fun i => g (2 ^ d + i)) (fun i hi => h _ (by omega))]

theorem treeRoot_zero (H : Id → Id → Id) : ∀ (d : Nat), treeRoot H d (fun _ => 0) = zeroHash H d
  | 0 => rfl
  | d + 1 => by simp only [treeRoot, zeroHash]; rw [treeRoot_zero H d]

theorem rootFrom_append (H : Id → Id → Id) (idx : Nat) : ∀ (br : List Id) (i : Nat) (acc s : Id),
    rootFrom H idx i acc (br ++ [s]) =
      if idx / 2 ^ (i + br.length) % 2 = 1 then H s (rootFrom H idx i acc br)
      else H (rootFrom H idx i acc br) s
  | [], i, acc, s => by simp only [rootFrom, bit_eq, List.nil_append, List.length_nil, Nat.add_zero]
  | b :: br, i, acc, s => by
    rw [List.cons_append, rootFrom, rootFrom, rootFrom_append H idx br (i + 1),
      show i + (b :: br).length = i + 1 + br.length by simp; omega]

theorem mod_pow_succ (n d : Nat) : n % 2 ^ (d + 1) = n % 2 ^ d + 2 ^ d * (n / 2 ^ d % 2) := by
  rw [Nat.pow_succ, Nat.mod_mul]

theorem branchOf_length (H : Id → Id → Id) (idx : Nat) : ∀ (d : Nat) (f : Nat → Id),
    (branchOf H idx d f).length = d
  | 0, _ => rfl
  | d + 1, f => by
    simp only [branchOf]
    split <;> simp [branchOf_length H idx d]

theorem root_branchOf (H : Id → Id → Id) (idx : Nat) : ∀ (d : Nat) (f : Nat → Id),
    merkleRootFromBranch H (f (idx % 2 ^ d)) (branchOf H idx d f) idx = treeRoot H d f
  | 0, f => by simp [merkleRootFromBranch, branchOf, rootFrom, treeRoot, Nat.mod_one]
  | d + 1, f => by
    have e := mod_pow_succ idx d
    have hm : idx / 2 ^ d % 2 < 2 := Nat.mod_lt _ (by omega)
    simp only [branchOf, merkleRootFromBranch, treeRoot]
    split
    · next hb =>
      rw [rootFrom_append, branchOf_length, Nat.zero_add, if_pos hb]
      rw [hb] at e
      have := root_branchOf H idx d (fun i => f (2 ^ d + i))
      simp only [merkleRootFromBranch] at this
      rw [← this, e, Nat.mul_one, Nat.add_comm (idx % 2 ^ d)]
    · next hb =>
      rw [rootFrom_append, branchOf_length, Nat.zero_add, if_neg hb]
      have h0 : idx / 2 ^ d % 2 = 0 := by omega
      rw [h0] at e
      have := root_branchOf H idx d f
      simp only [merkleRootFromBranch] at this
      rw [← this, e, Nat.mul_zero, Nat.add_zero]

theorem eq_snoc_of_length {α} {l : List α} {d : Nat} (h : l.length = d + 1) :
    ∃ l' s, l = l' ++ [s] ∧ l'.length = d := by
  rcases List.eq_nil_or_concat l with h0 | ⟨l', s, h1⟩
  · subst h0; simp at h
  · refine ⟨l', s, by simpa using h1, ?_⟩
    subst h1
    simpa using h

/-- Two branches one after the other: the index of the second is the index shifted. -/
theorem rootFrom_append_list (H : Id → Id → Id) (idx : Nat) : ∀ (b₁ b₂ : List Id) (i : Nat) (acc : Id),
    rootFrom H idx i acc (b₁ ++ b₂) = rootFrom H idx (i + b₁.length) (rootFrom H idx i acc b₁) b₂
  | [], b₂, i, acc => rfl
  | x :: b₁, b₂, i, acc => by
    rw [List.cons_append, rootFrom, rootFrom, rootFrom_append_list H idx b₁ b₂ (i + 1)]
    congr 1; simp; omega

theorem rootFrom_shift (H : Id → Id → Id) (idx k : Nat) : ∀ (b : List Id) (i : Nat) (acc : Id),
    rootFrom H idx (k + i) acc b = rootFrom H (idx / 2 ^ k) i acc b
  | [], _, _ => rfl
  | x :: b, i, acc => by
    rw [rootFrom, rootFrom, Nat.add_assoc, rootFrom_shift H idx k b (i + 1)]
    simp only [bit_eq]
    rw [Nat.pow_add, Nat.div_div_eq_div_mul]

theorem root_append (H : Id → Id → Id) (idx : Nat) (leaf : Id) (b₁ b₂ : List Id) :
    merkleRootFromBranch H leaf (b₁ ++ b₂) idx =
      merkleRootFromBranch H (merkleRootFromBranch H leaf b₁ idx) b₂ (idx / 2 ^ b₁.length) := by
  simp only [merkleRootFromBranch]
  rw [rootFrom_append_list, Nat.zero_add]
  exact rootFrom_shift H idx b₁.length b₂ 0 _

theorem root_cons (H : Id → Id → Id) (leaf s : Id) (rest : List Id) (idx : Nat) :
    merkleRootFromBranch H leaf (s :: rest) idx =
      merkleRootFromBranch H (if idx % 2 = 1 then H s leaf else H leaf s) rest (idx / 2) := by
  have := root_append H idx leaf [s] rest
  simp only [List.singleton_append, List.length_singleton, Nat.pow_one] at this
  rw [this]
  congr 1
  simp only [merkleRootFromBranch, rootFrom, bit_eq, Nat.pow_zero, Nat.div_one]

theorem branchPairs_append (H : Id → Id → Id) : ∀ (b₁ b₂ : List Id) (leaf : Id) (idx : Nat),
    branchPairs H leaf (b₁ ++ b₂) idx = branchPairs H leaf b₁ idx ++
      branchPairs H (merkleRootFromBranch H leaf b₁ idx) b₂ (idx / 2 ^ b₁.length)
  | [], b₂, leaf, idx => by simp [branchPairs, merkleRootFromBranch, rootFrom]
  | s :: b₁, b₂, leaf, idx => by
    have hd : idx / 2 / 2 ^ b₁.length = idx / 2 ^ (s :: b₁).length := by
      rw [List.length_cons, Nat.pow_succ, Nat.mul_comm, Nat.div_div_eq_div_mul]
    simp only [List.cons_append, branchPairs]
    rw [root_cons]
    split
    · rw [branchPairs_append H b₁ b₂, hd, List.cons_append]
    · rw [branchPairs_append H b₁ b₂, hd, List.cons_append]

theorem CollisionBetween.mono {H : Id → Id → Id} {A B A' B' : List (Id × Id)}
    (h : CollisionBetween H A B) (ha : A ⊆ A') (hb : B ⊆ B') : CollisionBetween H A' B' := by
  obtain ⟨p, hp, q, hq, h⟩ := h
  exact ⟨p, ha hp, q, hb hq, h⟩

/-- The last pair of a branch. -/
theorem branchPairs_last (H : Id → Id → Id) (leaf s : Id) (br : List Id) (idx : Nat) :
    branchPairs H leaf (br ++ [s]) idx = branchPairs H leaf br idx ++
      [if idx / 2 ^ br.length % 2 = 1 then (s, merkleRootFromBranch H leaf br idx)
        else (merkleRootFromBranch H leaf br idx, s)] := by
  rw [branchPairs_append]
  simp only [branchPairs]
  split <;> rfl

/-- A branch that leads to the root of a tree proves the leaf of that tree at that position, or exhibits
a collision; the branch is then the path in the tree. -/
theorem root_sound (H : Id → Id → Id) (idx : Nat) : ∀ (d : Nat) (f : Nat → Id) (leaf : Id)
    (br : List Id), br.length = d → merkleRootFromBranch H leaf br idx = treeRoot H d f →
    (leaf = f (idx % 2 ^ d) ∧ br = branchOf H idx d f) ∨
      CollisionBetween H (branchPairs H leaf br idx) (treePairs H d f)
  | 0, f, leaf, br, hl, h => by
    have : br = [] := List.length_eq_zero_iff.mp hl
    subst this
    simp only [merkleRootFromBranch, rootFrom, treeRoot] at h
    exact Or.inl ⟨by rw [h, Nat.pow_zero, Nat.mod_one], rfl⟩
  | d + 1, f, leaf, br, hl, h => by
    obtain ⟨br', s, rfl, hl'⟩ := eq_snoc_of_length hl
    have e := mod_pow_succ idx d
    have hm : idx / 2 ^ d % 2 < 2 := Nat.mod_lt _ (by omega)
    simp only [merkleRootFromBranch, treeRoot, rootFrom_append, hl', Nat.zero_add] at h
    by_cases hb : idx / 2 ^ d % 2 = 1
    · rw [if_pos hb] at h
      by_cases hp : (s, rootFrom H idx 0 leaf br') =
          (treeRoot H d f, treeRoot H d fun i => f (2 ^ d + i))
      · rw [Prod.mk.injEq] at hp
        rcases root_sound H idx d _ leaf br' hl' hp.2 with ⟨h1, h2⟩ | hc
        · left
          rw [hb] at e
          refine ⟨by rw [h1, e, Nat.mul_one, Nat.add_comm (idx % 2 ^ d)], ?_⟩
          simp only [branchOf, if_pos hb]
          rw [← h2, hp.1]
        · exact Or.inr (hc.mono (by rw [branchPairs_last]; simp) (by simp [treePairs]))
      · refine Or.inr ⟨_, ?_, _, List.mem_cons_self .., hp, h⟩
        rw [branchPairs_last, hl', if_pos hb]
        simp [merkleRootFromBranch]
    · rw [if_neg hb] at h
      by_cases hp : (rootFrom H idx 0 leaf br', s) =
          (treeRoot H d f, treeRoot H d fun i => f (2 ^ d + i))
      · rw [Prod.mk.injEq] at hp
        rcases root_sound H idx d _ leaf br' hl' hp.1 with ⟨h1, h2⟩ | hc
        · left
          have h0 : idx / 2 ^ d % 2 = 0 := by omega
          rw [h0] at e
          refine ⟨by rw [h1, e, Nat.mul_zero, Nat.add_zero], ?_⟩
          simp only [branchOf, if_neg hb]
          rw [← h2, hp.2]
        · exact Or.inr (hc.mono (by rw [branchPairs_last]; simp)
            (by simp only [treePairs]; intro x hx; simp [hx]))
      · refine Or.inr ⟨_, ?_, _, List.mem_cons_self .., hp, h⟩
        rw [branchPairs_last, hl', if_neg hb]
        simp [merkleRootFromBranch]

/-- Two branches of the same length and index with the same root have the same leaf and siblings, or
exhibit a collision. -/
theorem root_binding (H : Id → Id → Id) (idx : Nat) : ∀ (d : Nat) (l₁ l₂ : Id) (b₁ b₂ : List Id),
    b₁.length = d → b₂.length = d →
    merkleRootFromBranch H l₁ b₁ idx = merkleRootFromBranch H l₂ b₂ idx →
    (l₁ = l₂ ∧ b₁ = b₂) ∨
      CollisionBetween H (branchPairs H l₁ b₁ idx) (branchPairs H l₂ b₂ idx)
  | 0, l₁, l₂, b₁, b₂, h1, h2, h => by
    have e1 := List.length_eq_zero_iff.mp h1
    have e2 := List.length_eq_zero_iff.mp h2
    subst e1; subst e2
    exact Or.inl ⟨h, rfl⟩
  | d + 1, l₁, l₂, b₁, b₂, h1, h2, h => by
    obtain ⟨c₁, s₁, rfl, k1⟩ := eq_snoc_of_length h1
    obtain ⟨c₂, s₂, rfl, k2⟩ := eq_snoc_of_length h2
    simp only [merkleRootFromBranch, rootFrom_append, k1, k2, Nat.zero_add] at h
    by_cases hb : idx / 2 ^ d % 2 = 1
    · simp only [if_pos hb] at h
      by_cases hp : (s₁, rootFrom H idx 0 l₁ c₁) = (s₂, rootFrom H idx 0 l₂ c₂)
      · rw [Prod.mk.injEq] at hp
        rcases root_binding H idx d _ _ _ _ k1 k2 hp.2 with ⟨a, b⟩ | c
        · exact Or.inl ⟨a, by rw [b, hp.1]⟩
        · exact Or.inr (c.mono (by rw [branchPairs_last]; simp) (by rw [branchPairs_last]; simp))
      · refine Or.inr ⟨_, ?_, _, ?_, hp, h⟩
        · rw [branchPairs_last, k1, if_pos hb]; simp [merkleRootFromBranch]
        · rw [branchPairs_last, k2, if_pos hb]; simp [merkleRootFromBranch]
    · simp only [if_neg hb] at h
      by_cases hp : (rootFrom H idx 0 l₁ c₁, s₁) = (rootFrom H idx 0 l₂ c₂, s₂)
      · rw [Prod.mk.injEq] at hp
        rcases root_binding H idx d _ _ _ _ k1 k2 hp.1 with ⟨a, b⟩ | c
        · exact Or.inl ⟨a, by rw [b, hp.2]⟩
        · exact Or.inr (c.mono (by rw [branchPairs_last]; simp) (by rw [branchPairs_last]; simp))
      · refine Or.inr ⟨_, ?_, _, ?_, hp, h⟩
        · rw [branchPairs_last, k1, if_neg hb]; simp [merkleRootFromBranch]
        · rw [branchPairs_last, k2, if_neg hb]; simp [merkleRootFromBranch]

theorem rootFrom_mod (H : Id → Id → Id) (idx d : Nat) : ∀ (b : List Id) (i : Nat) (acc : Id),
    i + b.length ≤ d → rootFrom H (idx % 2 ^ d) i acc b = rootFrom H idx i acc b
  | [], _, _, _ => rfl
  | x :: b, i, acc, h => by
    simp only [List.length_cons] at h
    rw [rootFrom, rootFrom, rootFrom_mod H idx d b (i + 1) _ (by omega)]
    simp only [bit_eq]
    have : idx % 2 ^ d / 2 ^ i % 2 = idx / 2 ^ i % 2 := by
      have hd : d = i + (d - i - 1 + 1) := by omega
      rw [hd, Nat.pow_add, Nat.mod_mul_right_div_self, Nat.pow_succ, Nat.mul_comm (2 ^ (d - i - 1)),
        Nat.mod_mul_right_mod]
    rw [this]

/-- Only the lowest bits of the index matter. -/
theorem root_mod (H : Id → Id → Id) (leaf : Id) (b : List Id) (idx idx' : Nat)
    (h : idx % 2 ^ b.length = idx' % 2 ^ b.length) :
    merkleRootFromBranch H leaf b idx = merkleRootFromBranch H leaf b idx' := by
  simp only [merkleRootFromBranch]
  rw [← rootFrom_mod H idx b.length b 0 leaf (by omega), h,
    rootFrom_mod H idx' b.length b 0 leaf (by omega)]

theorem verify_iff (H : Id → Id → Id) (leaf : Id) (br : List Id) (d idx : Nat) (root : Id) :
    verifyMerkleProof H leaf br d idx root = true ↔
      br.length = d ∧ merkleRootFromBranch H leaf br idx = root := by
  unfold verifyMerkleProof
  split <;> simp_all

/-! ## The tree -/

/-- `t` is the tree of depth `d` over the leaves `f`, without finalised parts. -/
inductive Rep (H : Id → Id → Id) : Nat → (Nat → Id) → Tree → Prop where
  | zero (d f) : (∀ i, i < 2 ^ d → f i = 0) → Rep H d f (.zero d)
  | leaf (f h) : f 0 = h → Rep H 0 f (.leaf h)
  | node (d f l r) : Rep H d f l → Rep H d (fun i => f (2 ^ d + i)) r →
      Rep H (d + 1) f (mkNode H l r)

theorem Rep.hash {H : Id → Id → Id} {d f t} (h : Rep H d f t) : t.hash H = treeRoot H d f := by
  induction h with
  | zero d f h0 =>
    rw [treeRoot_congr H d f (fun _ => 0) h0, treeRoot_zero]; rfl
  | leaf f h e => exact e.symm
  | node d f l r _ _ ihl ihr =>
    show H _ _ = _
    rw [ihl, ihr]; rfl

theorem Rep.congr {H : Id → Id → Id} {d f t} (h : Rep H d f t) :
    ∀ g, (∀ i, i < 2 ^ d → f i = g i) → Rep H d g t := by
  induction h with
  | zero d f h0 => intro g hg; exact .zero d g (fun i hi => by rw [← hg i hi, h0 i hi])
  | leaf f h e => intro g hg; exact .leaf g h (by rw [← hg 0 (by simp), e])
  | node d f l r _ _ ihl ihr =>
    intro g hg
    have e : 2 ^ (d + 1) = 2 ^ d + 2 ^ d := by rw [Nat.pow_succ]; omega
    exact .node d g l r (ihl g fun i hi => hg i (by omega)) (ihr _ fun i hi => hg _ (by omega))

theorem zero_proof (H : Id → Id → Id) (idx : Nat) : ∀ d : Nat,
    generateProof H idx d (.zero d) = .ok (0, branchOf H idx d fun _ => 0)
  | 0 => rfl
  | d + 1 => by
    rw [generateProof]
    simp only [Tree.branches, zero_proof H idx d, bit_eq, branchOf, treeRoot_zero, Tree.hash]
    split <;> rfl
    intro h; simp

theorem branchOf_congr (H : Id → Id → Id) (idx : Nat) : ∀ (d : Nat) (f g : Nat → Id),
    (∀ i, i < 2 ^ d → f i = g i) → branchOf H idx d f = branchOf H idx d g
  | 0, f, g, h => rfl
  | d + 1, f, g, h => by
    have e : 2 ^ (d + 1) = 2 ^ d + 2 ^ d := by rw [Nat.pow_succ]; omega
    simp only [branchOf]
    rw [branchOf_congr H idx d f g (fun i hi => h i (by omega)),
      branchOf_congr H idx d _ (fun i => g (2 ^ d + i)) (fun i hi => h _ (by omega)),
      treeRoot_congr H d f g (fun i hi => h i (by omega)),
      treeRoot_congr H d _ (fun i => g (2 ^ d + i)) (fun i hi => h _ (by omega))]

theorem Rep.proof {H : Id → Id → Id} {d f t} (h : Rep H d f t) (idx : Nat) :
    generateProof H idx d t = .ok (f (idx % 2 ^ d), branchOf H idx d f) := by
  induction h with
  | zero d f h0 =>
    rw [zero_proof, h0 _ (Nat.mod_lt _ (Nat.two_pow_pos d)), branchOf_congr H idx d f (fun _ => 0) h0]
  | leaf f h e => subst e; simp [generateProof, Tree.hash, branchOf, Nat.mod_one]
  | node d f l r hl hr ihl ihr =>
    have e := mod_pow_succ idx d
    have hm : idx / 2 ^ d % 2 < 2 := Nat.mod_lt _ (by omega)
    rw [generateProof]
    · simp only [mkNode, Tree.branches, bit_eq, branchOf, ihl, ihr]
      split
      · next hb =>
        rw [hb] at e
        rw [e, Nat.mul_one, Nat.add_comm (idx % 2 ^ d), hl.hash]
        rfl
      · next hb =>
        have h0 : idx / 2 ^ d % 2 = 0 := by omega
        rw [h0] at e
        rw [e, Nat.mul_zero, Nat.add_zero, hr.hash]
        rfl
    · intro x hx; simp [mkNode] at hx

theorem create_nil (H : Id → Id → Id) : ∀ d, create H d [] = some (.zero d)
  | 0 => rfl
  | _ + 1 => rfl

theorem create_succ (H : Id → Id → Id) (d : Nat) (leaves : List Id) (hne : leaves ≠ []) :
    create H (d + 1) leaves = (create H d (leaves.take (2 ^ d))).bind fun l =>
      (create H d (leaves.drop (2 ^ d))).bind fun r => some (mkNode H l r) := by
  cases leaves with
  | nil => exact absurd rfl hne
  | cons x xs =>
    simp only [create]
    split
    · next h =>
      rw [List.take_of_length_le h, List.drop_of_length_le h]
      rfl
    · next h =>
      rw [List.splitAt_eq]
      rfl

/-- Building succeeds whenever the leaves fit, and gives the tree over the leaves padded with zeros. -/
theorem create_rep (H : Id → Id → Id) : ∀ (d : Nat) (leaves : List Id), leaves.length ≤ 2 ^ d →
    ∃ t, create H d leaves = some t ∧ Rep H d (fun i => leaves.getD i 0) t
  | d, [], _ => ⟨_, create_nil H d, .zero _ _ (by simp)⟩
  | 0, [x], _ => ⟨_, rfl, .leaf _ _ rfl⟩
  | 0, _ :: _ :: _, h => by simp at h
  | d + 1, x :: xs, h => by
    have e : 2 ^ (d + 1) = 2 ^ d + 2 ^ d := by rw [Nat.pow_succ]; omega
    have hl1 : ((x :: xs).take (2 ^ d)).length ≤ 2 ^ d := by rw [List.length_take]; omega
    have hl2 : ((x :: xs).drop (2 ^ d)).length ≤ 2 ^ d := by rw [List.length_drop]; omega
    obtain ⟨l, h1, r1⟩ := create_rep H d _ hl1
    obtain ⟨r, h2, r2⟩ := create_rep H d _ hl2
    refine ⟨mkNode H l r, ?_, ?_⟩
    · rw [create_succ H d _ (by simp), h1, h2]; rfl
    · refine .node _ _ _ _ (r1.congr _ ?_) (r2.congr _ ?_)
      · intro i hi
        simp only [List.getD_eq_getElem?_getD, List.getElem?_take, if_pos hi]
      · intro i hi
        simp only [List.getD_eq_getElem?_getD, List.getElem?_drop]

theorem createE_of_create {H : Id → Id → Id} {d l t} (h : create H d l = some t) :
    createE H d l = .ok t := by simp [createE, h]

theorem create_node {H : Id → Id → Id} {d leaves t} (hne : leaves ≠ [])
    (h : create H (d + 1) leaves = some t) : ∃ l r, create H d (leaves.take (2 ^ d)) = some l ∧
      create H d (leaves.drop (2 ^ d)) = some r ∧ t = mkNode H l r := by
  rw [create_succ H d _ hne] at h
  cases h1 : create H d (leaves.take (2 ^ d)) with
  | none => rw [h1] at h; cases h
  | some l =>
    cases h2 : create H d (leaves.drop (2 ^ d)) with
    | none => rw [h1, h2] at h; cases h
    | some r => rw [h1, h2] at h; exact ⟨l, r, rfl, rfl, by cases h; rfl⟩

theorem create_single {H : Id → Id → Id} {leaves t} (hne : leaves ≠ [])
    (h : create H 0 leaves = some t) : ∃ x, leaves = [x] ∧ t = .leaf x := by
  match leaves, hne with
  | [x], _ => exact ⟨x, rfl, by cases h; rfl⟩
  | _ :: _ :: _, _ => cases h

/-- Pushing into the tree of a leaf list gives the tree of the extended list, or reports that the tree
is full. -/
theorem push_create (H : Id → Id → Id) (x : Id) : ∀ (d : Nat) (leaves : List Id) (t : Tree),
    create H (d + 1) leaves = some t → leaves.length ≤ 2 ^ (d + 1) →
    pushLeaf H x (d + 1) t =
      if leaves.length < 2 ^ (d + 1) then createE H (d + 1) (leaves ++ [x]) else .error .merkleTreeFull := by
  intro d
  induction d with
  | zero =>
    intro leaves t h hl
    match leaves, h, hl with
    | [], h, _ =>
      rw [create_nil] at h; cases h
      simp [pushLeaf]
    | [a], h, _ =>
      cases h
      rfl
    | [a, b], h, _ =>
      cases h
      rfl
    | _ :: _ :: _ :: _, _, hl => simp at hl
  | succ d ih =>
    intro leaves t h hl
    have e : 2 ^ (d + 1 + 1) = 2 ^ (d + 1) + 2 ^ (d + 1) := by rw [Nat.pow_succ 2 (d + 1)]; omega
    have hpos := Nat.two_pow_pos (d + 1)
    by_cases hne : leaves = []
    · subst hne
      rw [create_nil] at h; cases h
      simp only [pushLeaf, List.length_nil, List.nil_append]
      rw [if_pos (by omega)]
    · obtain ⟨l, r, h1, h2, rfl⟩ := create_node hne h
      have hlen : leaves.length ≠ 0 := by simpa using hne
      have hne1 : leaves.take (2 ^ (d + 1)) ≠ [] := by
        rw [← List.length_pos_iff, List.length_take]; omega
      obtain ⟨ll, lr, _, _, rfl⟩ := create_node hne1 h1
      have hl1 : (leaves.take (2 ^ (d + 1))).length ≤ 2 ^ (d + 1) := by rw [List.length_take]; omega
      have ihl := ih _ _ h1 hl1
      by_cases hr : leaves.drop (2 ^ (d + 1)) = []
      · -- the right half is empty
        rw [hr, create_nil] at h2
        cases h2
        have hle : leaves.length ≤ 2 ^ (d + 1) := by
          have := congrArg List.length hr; rw [List.length_drop] at this
          simp at this; omega
        rw [List.take_of_length_le hle] at ihl h1
        rw [if_pos (by omega)]
        have hstep : pushLeaf H x (d + 1 + 1) (mkNode H (mkNode H ll lr) (.zero (d + 1))) =
            match pushLeaf H x (d + 1) (mkNode H ll lr) with
            | .ok l' => .ok (mkNode H l' (.zero (d + 1)))
            | .error .merkleTreeFull => (createE H (d + 1) [x]).bind fun r' =>
                .ok (mkNode H (mkNode H ll lr) r')
            | .error e => .error e := rfl
        rw [hstep, ihl]
        by_cases hlt : leaves.length < 2 ^ (d + 1)
        · rw [if_pos hlt]
          have hfit : (leaves ++ [x]).length ≤ 2 ^ (d + 1) := by
            rw [List.length_append]; simp; omega
          obtain ⟨t', ht', -⟩ := create_rep H (d + 1) (leaves ++ [x]) hfit
          have hc : create H (d + 1 + 1) (leaves ++ [x]) = some (mkNode H t' (.zero (d + 1))) := by
            rw [create_succ H _ _ (by simp), List.take_of_length_le hfit,
              List.drop_of_length_le hfit, ht', create_nil]; rfl
          rw [createE_of_create ht', createE_of_create hc]
        · rw [if_neg hlt]
          have heq : leaves.length = 2 ^ (d + 1) := by omega
          obtain ⟨t', ht', -⟩ := create_rep H (d + 1) [x] (by simp; omega)
          have hc : create H (d + 1 + 1) (leaves ++ [x]) = some (mkNode H (mkNode H ll lr) t') := by
            rw [create_succ H _ _ (by simp), List.take_append_of_le_length (by omega),
              List.take_of_length_le (by omega), List.drop_append_of_le_length (by omega),
              List.drop_of_length_le (by omega), List.nil_append, ht', h1]; rfl
          simp only [createE_of_create ht', createE_of_create hc]
          rfl
      · obtain ⟨rl, rr, _, _, rfl⟩ := create_node hr h2
        have hgt : 2 ^ (d + 1) < leaves.length := by
          have := List.length_pos_iff.mpr hr; rw [List.length_drop] at this; omega
        have hl2 : (leaves.drop (2 ^ (d + 1))).length ≤ 2 ^ (d + 1) := by
          rw [List.length_drop]; omega
        have ihr := ih _ _ h2 hl2
        have hstep : pushLeaf H x (d + 1 + 1) (mkNode H (mkNode H ll lr) (mkNode H rl rr)) =
            (pushLeaf H x (d + 1) (mkNode H rl rr)).bind fun r' =>
              .ok (mkNode H (mkNode H ll lr) r') := rfl
        rw [hstep, ihr, List.length_drop]
        by_cases hlt : leaves.length < 2 ^ (d + 1 + 1)
        · rw [if_pos hlt, if_pos (by omega)]
          have hfit : (leaves.drop (2 ^ (d + 1)) ++ [x]).length ≤ 2 ^ (d + 1) := by
            rw [List.length_append, List.length_drop]; simp; omega
          obtain ⟨t', ht', -⟩ := create_rep H (d + 1) _ hfit
          have hc : create H (d + 1 + 1) (leaves ++ [x]) = some (mkNode H (mkNode H ll lr) t') := by
            rw [create_succ H _ _ (by simp), List.take_append_of_le_length (Nat.le_of_lt hgt),
              List.drop_append_of_le_length (Nat.le_of_lt hgt), ht', h1]; rfl
          rw [createE_of_create ht', createE_of_create hc]
          rfl
        · rw [if_neg hlt, if_neg (by omega)]
          rfl

/-! ## Finalised deposits -/

theorem listRoot_succ (H : Id → Id → Id) (d : Nat) (leaves : List Id) :
    listRoot H (d + 1) leaves =
      H (listRoot H d (leaves.take (2 ^ d))) (listRoot H d (leaves.drop (2 ^ d))) := by
  simp only [listRoot, treeRoot]
  congr 1
  · apply treeRoot_congr
    intro i hi
    simp only [List.getD_eq_getElem?_getD, List.getElem?_take, if_pos hi]
  · apply treeRoot_congr
    intro i hi
    simp only [List.getD_eq_getElem?_getD, List.getElem?_drop]

theorem listRoot_nil (H : Id → Id → Id) (d : Nat) : listRoot H d [] = zeroHash H d := by
  rw [← treeRoot_zero]; rfl

/-- The hashes that represent the first `n` leaves: the roots of the maximal full subtrees. -/
def snapshotHashes (H : Id → Id → Id) : (d : Nat) → (leaves : List Id) → (n : Nat) → List Id
  | 0, leaves, _ => [listRoot H 0 leaves]
  | d + 1, leaves, n =>
    if 2 ^ (d + 1) ≤ n then [listRoot H (d + 1) leaves]
    else snapshotHashes H d (leaves.take (2 ^ d)) n ++
      (if n > 2 ^ d then snapshotHashes H d (leaves.drop (2 ^ d)) (n - 2 ^ d) else [])

theorem create_hash {H : Id → Id → Id} {d leaves t} (h : create H d leaves = some t)
    (hl : leaves.length ≤ 2 ^ d) : t.hash H = listRoot H d leaves := by
  obtain ⟨t', h', r⟩ := create_rep H d leaves hl
  rw [h] at h'; cases h'
  exact r.hash

theorem Rep.finalizedHashes {H : Id → Id → Id} {d f t} (h : Rep H d f t) : finalizedHashes t = [] := by
  induction h with
  | zero d f _ => rfl
  | leaf f h _ => rfl
  | node d f l r _ _ ihl ihr => simp [mkNode, Merkle.finalizedHashes, ihl, ihr]

theorem finalize_create (H : Id → Id → Id) : ∀ (d n : Nat) (leaves : List Id) (t : Tree),
    create H d leaves = some t → leaves.length ≤ 2 ^ d → 1 ≤ n → min n (2 ^ d) ≤ leaves.length →
    ∃ t', finalizeDeposits n d t = .ok t' ∧ t'.hash H = t.hash H ∧
      finalizedHashes t' = snapshotHashes H d leaves n := by
  intro d
  induction d with
  | zero =>
    intro n leaves t h hl hn hm
    have hne : leaves ≠ [] := by
      intro e; subst e; simp at hm; omega
    obtain ⟨x, rfl, rfl⟩ := create_single hne h
    exact ⟨.finalized x, rfl, rfl, rfl⟩
  | succ d ih =>
    intro n leaves t h hl hn hm
    have e : 2 ^ (d + 1) = 2 ^ d + 2 ^ d := by rw [Nat.pow_succ]; omega
    have hpos := Nat.two_pow_pos d
    have hne : leaves ≠ [] := by
      intro e'; subst e'; simp at hm; omega
    have hroot := create_hash h hl
    obtain ⟨l, r, h1, h2, rfl⟩ := create_node hne h
    have hl1 : (leaves.take (2 ^ d)).length = min (2 ^ d) leaves.length := List.length_take
    have hl2 : (leaves.drop (2 ^ d)).length = leaves.length - 2 ^ d := List.length_drop
    have half : 2 ^ (d + 1) / 2 = 2 ^ d := by omega
    by_cases hfull : 2 ^ (d + 1) ≤ n
    · refine ⟨.finalized ((mkNode H l r).hash H), ?_, rfl, ?_⟩
      · show (if 2 ^ (d + 1) ≤ n then _ else _) = _
        rw [if_pos hfull]; rfl
      · simp only [finalizedHashes, snapshotHashes, if_pos hfull, hroot]
    · obtain ⟨l', f1, f2, f3⟩ := ih n _ l h1 (by omega) hn (by omega)
      by_cases hr : n > 2 ^ d
      · obtain ⟨r', g1, g2, g3⟩ := ih (n - 2 ^ d) _ r h2 (by omega) (by omega) (by omega)
        refine ⟨.node (H (l.hash H) (r.hash H)) l' r', ?_, rfl, ?_⟩
        · simp only [mkNode, finalizeDeposits, if_neg hfull, f1, half, if_pos hr, g1]
          rfl
        · simp only [finalizedHashes, snapshotHashes, if_neg hfull, if_pos hr, f3, g3]
      · refine ⟨.node (H (l.hash H) (r.hash H)) l' r, ?_, rfl, ?_⟩
        · simp only [mkNode, finalizeDeposits, if_neg hfull, f1, half, if_neg hr]
          rfl
        · obtain ⟨r', hr', rep⟩ := create_rep H d (leaves.drop (2 ^ d)) (by omega)
          rw [h2] at hr'; cases hr'
          simp only [finalizedHashes, snapshotHashes, if_neg hfull, if_neg hr, f3,
            rep.finalizedHashes]

theorem snapshotHashes_ne (H : Id → Id → Id) : ∀ (d : Nat) (leaves : List Id) (n : Nat),
    snapshotHashes H d leaves n ≠ []
  | 0, _, _ => by simp [snapshotHashes]
  | d + 1, leaves, n => by
    simp only [snapshotHashes]
    split
    · simp
    · simp [snapshotHashes_ne H d]

theorem snapshotHashes_full (H : Id → Id → Id) (d : Nat) (leaves : List Id) (n : Nat)
    (h : 2 ^ d ≤ n) : snapshotHashes H d leaves n = [listRoot H d leaves] := by
  cases d with
  | zero => rfl
  | succ d => rw [snapshotHashes, if_pos h]

theorem fromSnapshot_hashes (H : Id → Id → Id) : ∀ (d n : Nat) (leaves : List Id),
    1 ≤ n → n ≤ 2 ^ d → n ≤ leaves.length →
    ∃ s, fromSnapshot H d (snapshotHashes H d leaves n) n = .ok s ∧
      s.hash H = listRoot H d (leaves.take n) := by
  intro d
  induction d with
  | zero =>
    intro n leaves hn hd hl
    have : n = 1 := by simp at hd; omega
    subst this
    refine ⟨.finalized (listRoot H 0 leaves), rfl, ?_⟩
    cases leaves with
    | nil => simp at hl
    | cons x xs => rfl
  | succ d ih =>
    intro n leaves hn hd hl
    have e : 2 ^ (d + 1) = 2 ^ d + 2 ^ d := by rw [Nat.pow_succ]; omega
    have hpos := Nat.two_pow_pos d
    have hl1 : (leaves.take (2 ^ d)).length = min (2 ^ d) leaves.length := List.length_take
    have hl2 : (leaves.drop (2 ^ d)).length = leaves.length - 2 ^ d := List.length_drop
    by_cases hfull : n = 2 ^ (d + 1)
    · refine ⟨.finalized (listRoot H (d + 1) leaves), ?_, ?_⟩
      · rw [snapshotHashes_full H _ _ _ (by omega), fromSnapshot, if_pos hfull]
      · show listRoot H (d + 1) leaves = _
        simp only [listRoot]
        apply treeRoot_congr
        intro i hi
        simp only [List.getD_eq_getElem?_getD, List.getElem?_take, if_pos (by omega : i < n)]
    · have hnf : ¬ 2 ^ (d + 1) ≤ n := by omega
      simp only [snapshotHashes, if_neg hnf]
      by_cases hge : 2 ^ d ≤ n
      · rw [snapshotHashes_full H d _ _ hge]
        have hleft : listRoot H d ((leaves.take n).take (2 ^ d)) = listRoot H d (leaves.take (2 ^ d)) := by
          rw [List.take_take, Nat.min_eq_left hge]
        by_cases hgt : n > 2 ^ d
        · rw [if_pos hgt]
          obtain ⟨s, s1, s2⟩ := ih (n - 2 ^ d) (leaves.drop (2 ^ d)) (by omega) (by omega) (by omega)
          refine ⟨mkNode H (.finalized (listRoot H d (leaves.take (2 ^ d)))) s, ?_, ?_⟩
          · rw [List.singleton_append, fromSnapshot, if_neg hfull, if_pos hge, s1]
            rfl
          · show H _ _ = _
            rw [listRoot_succ, hleft, s2, List.drop_take]
            rfl
        · rw [if_neg hgt]
          have heq : n = 2 ^ d := by omega
          refine ⟨mkNode H (.finalized (listRoot H d (leaves.take (2 ^ d)))) (.zero d), ?_, ?_⟩
          · rw [List.append_nil, fromSnapshot, if_neg hfull, if_pos hge]
            have : fromSnapshot H d [] (n - 2 ^ d) = .ok (.zero d) := by
              rw [heq, Nat.sub_self]
              cases d <;> rfl
            rw [this]
            rfl
          · show H _ _ = _
            rw [listRoot_succ, hleft, List.drop_take, heq, Nat.sub_self, List.take_zero, listRoot_nil]
            rfl
      · rw [if_neg (by omega), List.append_nil]
        obtain ⟨s, s1, s2⟩ := ih n (leaves.take (2 ^ d)) (by omega) (by omega) (by omega)
        refine ⟨mkNode H s (.zero d), ?_, ?_⟩
        · cases hs : snapshotHashes H d (leaves.take (2 ^ d)) n with
          | nil => exact absurd hs (snapshotHashes_ne H d _ _)
          | cons a rest =>
            rw [hs] at s1
            rw [fromSnapshot, if_neg hfull, if_neg hge, s1]
            rfl
        · show H _ _ = _
          rw [listRoot_succ, s2, List.take_take, List.take_take, Nat.min_comm,
            List.drop_of_length_le (by rw [List.length_take]; omega), listRoot_nil]
          rfl

end Verif.Merkle
