import Verif.Model.SszTypes
import Verif.Model.LightClient
import Verif.Model.AcceptCode

/-! # SSZ types with their hash trees

What `#[derive(Encode, Decode, TreeHash)]`, `FixedVector`, `VariableList`, `BitVector` and `BitList` of the libraries
`ethereum_ssz`, `ssz_types` and `tree_hash` do, as combinators: a type is a codec together with the tree whose root is
`tree_hash_root`. The libraries are not in /repo; the model follows their documented algorithm. -/

namespace Verif.TreeHash
open Verif.Ssz Verif.SszT Verif.ContentKey
open Verif.Merkle (zeroHash)
open Verif.HeaderValidator (leNode depthFor)
open Verif.LightClient (chunk)

/-- What `MerkleHasher` hashes: leaves, pairs, and the padding with zeros of a subtree of a given depth, whose hash is
in the table `ZERO_HASHES`. -/
inductive HTree where
  | leaf (h : Id)
  | zero (depth : Nat)
  | node (l r : HTree)

/-- The root; `H` is the hash of two values (`hash32_concat`). -/
def HTree.root (H : Id → Id → Id) : HTree → Id
  | .leaf h => h
  | .zero d => zeroHash H d
  | .node l r => H (l.root H) (r.root H)

/-- The pairs hashed for the root. -/
def HTree.pairs (H : Id → Id → Id) : HTree → List (Id × Id)
  | .leaf _ => []
  | .zero _ => []
  | .node l r => (l.root H, r.root H) :: (l.pairs H ++ r.pairs H)

/-- `MerkleHasher::with_leaves`: the tree of depth `d` over these subtrees, from the left, padded with zeros. -/
def ofLeaves : Nat → List HTree → HTree
  | d, [] => .zero d
  | 0, t :: _ => t
  | d + 1, t :: ts => .node (ofLeaves d ((t :: ts).take (2 ^ d))) (ofLeaves d ((t :: ts).drop (2 ^ d)))

/-- Bytes as leaves of 32 bytes, the last one padded with zeros. -/
def byteLeaves (bs : Bytes) : List HTree := (chunks 32 ((bs.length + 31) / 32) bs).map fun c => .leaf (chunk c)

/-- `mix_in_length`. -/
def withLength (t : HTree) (n : Nat) : HTree := .node t (.leaf (leNode n))

/-- A type: its codec, whether values of it are packed into leaves (`TreeHashType::Basic`), and its tree. -/
structure Ty (α : Type) where
  codec : Codec α
  basic : Bool
  tree : α → HTree

/-- `u64`. -/
def u64 : Ty UInt64 := ⟨ContentKey.u64, true, fun x => .leaf (leNode x.toNat)⟩
/-- `U256`. -/
def u256 : Ty (BitVec 256) := ⟨SszT.u256, true, fun x => .leaf (leNode x.toNat)⟩
/-- `B256`. -/
def b256 : Ty Id := ⟨hash, false, fun x => .leaf x⟩

/-- `[u8; n]`, `FixedVector<u8, n>`, `BitVector<8 n>`, `Address`: the bytes in leaves. For `BlsSignature`
(consensus/signature.rs:70-86) this is `merkle_root(&self.signature, 1)`; `PubKey` (pubkey.rs:12-15) is a structure with one
field, which has the root of the field. -/
def bytes (n : Nat) : Ty (BytesN n) :=
  ⟨bytesN n, false, fun x => ofLeaves (depthFor ((n + 31) / 32)) (byteLeaves x.1)⟩

/-- `VariableList<u8, max>`. -/
def byteList (max : Nat) : Ty (BList UInt8 max) :=
  ⟨SszT.byteList max, false, fun x => withLength (ofLeaves (depthFor ((max + 31) / 32)) (byteLeaves x.1)) x.1.length⟩

/-- `BitList<max>`: the bits, eight to a byte, without the delimiter; at least one byte. -/
def bitlist (max : Nat) : Ty (BList Bool max) where
  codec :=
    { field := .var
      enc := fun x => bitlistEncode x.1
      dec := fun b => (bitlistDecode max b).bind (toBList max) }
  basic := false
  tree x := withLength (ofLeaves (depthFor (((max + 7) / 8 + 31) / 32))
    (byteLeaves (toLe (if x.1.length = 0 then 1 else (x.1.length + 7) / 8) (bitsToNat x.1)))) x.1.length

/-- The number of leaves for `n` values: `tree_hash_packing_factor` values to a leaf. -/
def leafCount {α} (t : Ty α) (n : Nat) : Nat :=
  if t.basic then (n + 32 / t.codec.field.headLen - 1) / (32 / t.codec.field.headLen) else n

/-- `vec_tree_hash_root`: the subtrees for a sequence of values. -/
def seqLeaves {α} (t : Ty α) (l : List α) : List HTree :=
  if t.basic then byteLeaves (l.map t.codec.enc).flatten else l.map t.tree

/-- `FixedVector<T, n>` with `T` of fixed size. -/
def vector {α} (t : Ty α) (n : Nat) : Ty (Vec α n) :=
  ⟨SszT.vector t.codec n, false, fun x => ofLeaves (depthFor (leafCount t n)) (seqLeaves t x.1)⟩

/-- The tree of a `VariableList<T, max>`. -/
def listTree {α} (t : Ty α) (max : Nat) (x : BList α max) : HTree :=
  withLength (ofLeaves (depthFor (leafCount t max)) (seqLeaves t x.1)) x.1.length

/-- `VariableList<T, max>` with `T` of fixed size. -/
def list {α} (t : Ty α) (max : Nat) : Ty (BList α max) := ⟨SszT.list t.codec max, false, listTree t max⟩
/-- `VariableList<T, max>` with `T` of variable size. -/
def varList {α} (t : Ty α) (max : Nat) : Ty (BList α max) := ⟨SszT.varList t.codec max, false, listTree t max⟩

/-- The fields of a structure, in order. -/
structure Fields (α : Type) where
  ssz : Rec α
  trees : α → List HTree

def Fields.nil : Fields Unit := ⟨Rec.nil, fun _ => []⟩
def Fields.cons {α β} (t : Ty α) (r : Fields β) : Fields (α × β) :=
  ⟨Rec.cons t.codec r.ssz, fun x => t.tree x.1 :: r.trees x.2⟩

/-- A derived structure; `f` and `g` name its fields. -/
def struct {α β} (r : Fields α) (f : α → β) (g : β → α) : Ty β :=
  ⟨container r.ssz f g, false, fun x => ofLeaves (depthFor r.ssz.fields.length) (r.trees (g x))⟩

end Verif.TreeHash
