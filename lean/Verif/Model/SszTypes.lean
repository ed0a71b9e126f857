import Verif.Model.ContentKey

/-! # SSZ codecs of whole types

What `#[derive(Encode, Decode)]`, `FixedVector`, `VariableList` and `BitVector` of the libraries
`ethereum_ssz` and `ssz_types` do, as combinators. The libraries are not in /repo; the model follows their
documented algorithm (Model/Ssz.lean). A Rust array or `FixedVector` of length `n` is a list with the proof of
its length, a `VariableList` one with the proof of its bound. -/

namespace Verif.SszT
open Verif.Ssz Verif.ContentKey

abbrev Vec (α : Type) (n : Nat) := { l : List α // l.length = n }
abbrev BList (α : Type) (n : Nat) := { l : List α // l.length ≤ n }
abbrev BytesN (n : Nat) := Vec UInt8 n

/-- `[u8; n]`, `FixedVector<u8, n>`, `BitVector<8 n>`. -/
def bytesN (n : Nat) : Codec (BytesN n) where
  field := .fixed n
  enc x := x.1
  dec b := if h : b.length = n then some ⟨b, h⟩ else none

/-- `VariableList<u8, max>`. -/
def byteList (max : Nat) : Codec (BList UInt8 max) where
  field := .var
  enc x := x.1
  dec b := if h : b.length ≤ max then some ⟨b, h⟩ else none

/-- `U256`: 32 bytes, least significant first. -/
def u256 : Codec (BitVec 256) where
  field := .fixed 32
  enc x := toLe 32 x.toNat
  dec b := (decodeUint 32 b).map (BitVec.ofNat 256)

/-- `Vec<Result<..>>::collect`: the first failure stops. -/
def decAll {α} (c : Codec α) : List Bytes → Option (List α)
  | [] => some []
  | b :: bs =>
    match c.dec b with
    | none => none
    | some x => (decAll c bs).map (x :: ·)

def toVec {α} (n : Nat) (l : List α) : Option (Vec α n) :=
  if h : l.length = n then some ⟨l, h⟩ else none
def toBList {α} (n : Nat) (l : List α) : Option (BList α n) :=
  if h : l.length ≤ n then some ⟨l, h⟩ else none

/-- `FixedVector<T, n>` with `T` of fixed size. -/
def vector {α} (c : Codec α) (n : Nat) : Codec (Vec α n) where
  field := .fixed (c.field.headLen * n)
  enc x := (x.1.map c.enc).flatten
  dec b :=
    if b.length = c.field.headLen * n then
      (decAll c (chunks c.field.headLen n b)).bind (toVec n)
    else none

/-- `VariableList<T, max>` with `T` of fixed size. -/
def list {α} (c : Codec α) (max : Nat) : Codec (BList α max) where
  field := .var
  enc x := encodeFixedList (x.1.map c.enc)
  dec b := ((decodeFixedList c.field.headLen max b).bind (decAll c)).bind (toBList max)

/-- `VariableList<T, max>` with `T` of variable size. -/
def varList {α} (c : Codec α) (max : Nat) : Codec (BList α max) where
  field := .var
  enc x := encodeVarList (x.1.map c.enc)
  dec b := ((decodeVarList max b).bind (decAll c)).bind (toBList max)

/-- The fields of a structure, in order. -/
structure Rec (α : Type) where
  fields : List Field
  enc : α → List Bytes
  dec : List Bytes → Option α

def Rec.nil : Rec Unit where
  fields := []
  enc _ := []
  dec
    | [] => some ()
    | _ => none

def Rec.cons {α β} (c : Codec α) (r : Rec β) : Rec (α × β) where
  fields := c.field :: r.fields
  enc x := c.enc x.1 :: r.enc x.2
  dec
    | [] => none
    | b :: bs =>
      match c.dec b with
      | none => none
      | some x => (r.dec bs).map (x, ·)

/-- `is_ssz_fixed_len` of a derived structure: when all its fields are. -/
def containerField (fs : List Field) : Field :=
  if fs.all (fun f => f != .var) then .fixed (headLen fs) else .var

/-- A derived structure; `f` and `g` name its fields. -/
def container {α β} (r : Rec α) (f : α → β) (g : β → α) : Codec β where
  field := containerField r.fields
  enc x := encodeContainer r.fields (r.enc (g x))
  dec b :=
    match decodeContainer r.fields b with
    | none => none
    | some vs => (r.dec vs).map f

end Verif.SszT
