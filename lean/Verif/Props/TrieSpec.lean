import Verif.Model.Trie

/-! # Specification of Merkle Patricia tries, independent of the traversal -/

namespace Verif.Trie

/-- A trie with all nodes expanded. -/
inductive PTrie where
  | empty
  | leaf (key : List UInt8) (value : Bytes)
  | extension (pre : List UInt8) (t : PTrie)
  | branch (children : Fin 16 → PTrie) (value : Option Bytes)

/-- The value stored under a path. -/
def PTrie.lookup : PTrie → List UInt8 → Option Bytes
  | .empty, _ => none
  | .leaf key v, path => if path = key then some v else none
  | .extension pre t, path => if pre <+: path then t.lookup (path.drop pre.length) else none
  | .branch _ v, [] => v
  | .branch cs _, n :: path => if h : n.toNat < 16 then (cs ⟨n.toNat, h⟩).lookup path else none

/-- The subtrie that a path leads to, if the path ends at a node. -/
def PTrie.sub : PTrie → List UInt8 → Option PTrie
  | t, [] => some t
  | .empty, _ :: _ => none
  | .leaf _ _, _ :: _ => none
  | .extension pre t, n :: path =>
    if pre <+: n :: path then t.sub ((n :: path).drop pre.length) else none
  | .branch cs _, n :: path => if h : n.toNat < 16 then (cs ⟨n.toNat, h⟩).sub path else none

/-- A node stands for an expanded trie, if the nodes it refers to by hash are the ones in `db`, the
encoded nodes of the genuine trie. -/
inductive Rep (env : Env) (db : List Bytes) : Node → PTrie → Prop where
  | empty : Rep env db .empty .empty
  | leaf (key v) : Rep env db (.leaf (key ++ [16]) v) (.leaf key v)
  | extension (pre n t) : Rep env db n t → Rep env db (.extension pre n) (.extension pre t)
  | branch (ns ts v) : (∀ i, Rep env db (ns i) (ts i)) → Rep env db (.branch ns v) (.branch ts v)
  | hash (b n t) : b ∈ db → env.decode b = some n → Rep env db n t → Rep env db (.hash (env.K b)) t

/-- The trie with this root hash is `t`, and `db` has its nodes. -/
def Commits (env : Env) (db : List Bytes) (root : Id) (t : PTrie) : Prop := Rep env db (.hash root) t

/-- No leaf or extension with an empty key (true of every trie in canonical form, except for leaves at
the full depth of the key). -/
inductive PTrie.NoEmptyKeys : PTrie → Prop where
  | empty : NoEmptyKeys .empty
  | leaf (key v) : key ≠ [] → NoEmptyKeys (.leaf key v)
  | extension (pre t) : pre ≠ [] → NoEmptyKeys t → NoEmptyKeys (.extension pre t)
  | branch (ts v) : (∀ i, NoEmptyKeys (ts i)) → NoEmptyKeys (.branch ts v)

/-- Two byte strings, one of each list, that are different and have the same hash. -/
def ByteCollision (K : Bytes → Id) (A B : List Bytes) : Prop :=
  ∃ a ∈ A, ∃ b ∈ B, a ≠ b ∧ K a = K b

/-- The 64 hexadecimal digits of a hash. -/
def hexDigits (h : Id) : List UInt8 :=
  (List.range 64).map fun i => UInt8.ofNat (h.toNat / 16 ^ (63 - i) % 16)

end Verif.Trie

namespace Verif.Trie

/-- Below the node `n`, the path leads to a node that is stored by hash; `b` is its encoding. -/
inductive StoredAt (env : Env) (db : List Bytes) : Node → List UInt8 → Bytes → Prop where
  | here (b) : b ∈ db → StoredAt env db (.hash (env.K b)) [] b
  | hash (b' n path b) : b' ∈ db → env.decode b' = some n → StoredAt env db n path b →
      StoredAt env db (.hash (env.K b')) path b
  | extension (pre n path b) : pre ≠ [] → StoredAt env db n path b →
      StoredAt env db (.extension pre n) (pre ++ path) b
  | branch (ns v) (i : Fin 16) (path b) : StoredAt env db (ns i) path b →
      StoredAt env db (.branch ns v) (UInt8.ofNat i.val :: path) b

end Verif.Trie
