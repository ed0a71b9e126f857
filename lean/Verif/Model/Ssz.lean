import Verif.Model.Bytes

/-! # SSZ containers, lists and unions

The `ethereum_ssz` library used by the derive macros of the repository (`#[derive(Encode, Decode)]`).
Its source is not in /repo; this is a model of its documented algorithm: `SszEncoder::container`,
`SszDecoderBuilder::{register_type, build}`, `decode_list_of_variable_length_items` and
`split_union_bytes`. A field is given to these functions as the byte string of its own encoding. -/

namespace Verif.Ssz

/-- `is_ssz_fixed_len` / `ssz_fixed_len` of a field's type. -/
inductive Field where
  | fixed (len : Nat)
  | var
deriving DecidableEq, Repr

/-- Bytes a field takes in the fixed portion (an offset takes `BYTES_PER_LENGTH_OFFSET = 4`). -/
def Field.headLen : Field → Nat
  | .fixed n => n
  | .var => 4

def headLen : List Field → Nat
  | [] => 0
  | f :: fs => f.headLen + headLen fs

/-- Fixed portion written by `SszEncoder`: fixed fields inline, an offset for each variable one. -/
def fixedPart : List Field → List Bytes → Nat → Bytes
  | .fixed _ :: fs, v :: vs, off => v ++ fixedPart fs vs off
  | .var :: fs, v :: vs, off => toLe 4 off ++ fixedPart fs vs (off + v.length)
  | _, _, _ => []

/-- Variable portion: the variable fields one after the other. -/
def varPart : List Field → List Bytes → Bytes
  | .fixed _ :: fs, _ :: vs => varPart fs vs
  | .var :: fs, v :: vs => v ++ varPart fs vs
  | _, _ => []

/-- `SszEncoder::container` .. `finalize`. -/
def encodeContainer (fs : List Field) (vs : List Bytes) : Bytes :=
  fixedPart fs vs (headLen fs) ++ varPart fs vs

/-- One registered item: the slice of a fixed field or the offset of a variable one. -/
inductive Slot where
  | bytes (b : Bytes)
  | offset (o : Nat)
deriving DecidableEq, Repr

/-- `SszDecoderBuilder::register_type` for each field, over the bytes not yet consumed. `n` is the
total length, `prev` the previous offset (0 before the first). `none` is any `DecodeError`. -/
def register (n : Nat) : List Field → Nat → Bytes → Option (List Slot)
  | [], _, _ => some []
  | .fixed k :: fs, prev, rem =>
    if k ≤ rem.length then (register n fs prev (rem.drop k)).map (Slot.bytes (rem.take k) :: ·)
    else none
  | .var :: fs, prev, rem =>
    if 4 ≤ rem.length then
      let o := fromLe (rem.take 4)
      if o ≤ n ∧ prev ≤ o then (register n fs o (rem.drop 4)).map (Slot.offset o :: ·)
      else none
    else none

/-- The first registered offset. -/
def firstOffset : List Slot → Option Nat
  | [] => none
  | .bytes _ :: t => firstOffset t
  | .offset o :: _ => some o

/-- The slices between consecutive offsets (the last one runs to the end). -/
def resolve (all : Bytes) : List Slot → List Bytes
  | [] => []
  | .bytes b :: t => b :: resolve all t
  | .offset o :: t =>
    ((all.drop o).take ((firstOffset t).getD all.length - o)) :: resolve all t

/-- `SszDecoderBuilder::build`: the first offset must point right behind the fixed portion; without
variable fields there must be no further bytes. -/
def decodeContainer (fs : List Field) (bs : Bytes) : Option (List Bytes) :=
  match register bs.length fs 0 bs with
  | none => none
  | some slots =>
    match firstOffset slots with
    | some o => if o = headLen fs then some (resolve bs slots) else none
    | none => if headLen fs = bs.length then some (resolve bs slots) else none

/-- Encoding of a list of variable-size items. -/
def encodeVarList (vs : List Bytes) : Bytes := encodeContainer (vs.map fun _ => Field.var) vs

/-- `decode_list_of_variable_length_items`: the number of items is the first offset divided by 4, at
most `max`. After that the checks are the ones of a container with that many variable fields. -/
def decodeVarList (max : Nat) (bs : Bytes) : Option (List Bytes) :=
  if bs = [] then some []
  else if bs.length < 4 then none
  else
    let o := fromLe (bs.take 4)
    if o % 4 ≠ 0 ∨ o < 4 then none
    else if max < o / 4 then none
    else decodeContainer (List.replicate (o / 4) Field.var) bs

/-- Splits into chunks of `n` bytes: `decode` of a list of fixed-size items. -/
def chunks (n : Nat) : Nat → Bytes → List Bytes
  | 0, _ => []
  | k + 1, bs => bs.take n :: chunks n k (bs.drop n)

/-- Decoding of `VariableList<T, max>` with `T` of fixed size `n > 0`. -/
def decodeFixedList (n max : Nat) (bs : Bytes) : Option (List Bytes) :=
  if bs.length % n ≠ 0 then none
  else if max < bs.length / n then none
  else some (chunks n (bs.length / n) bs)

def encodeFixedList (vs : List Bytes) : Bytes := vs.flatten

/-- `VariableList<u8, max>`: the bytes themselves, with the length check. -/
def decodeByteList (max : Nat) (bs : Bytes) : Option Bytes :=
  if bs.length ≤ max then some bs else none

/-- `u64`/`u16`/.. : little endian, exactly `n` bytes. -/
def decodeUint (n : Nat) (bs : Bytes) : Option Nat :=
  if bs.length = n then some (fromLe bs) else none

/-- `split_union_bytes`: selector byte (0..=127 by `UnionSelector::new`) and body. -/
def splitUnion : Bytes → Option (UInt8 × Bytes)
  | [] => none
  | s :: body => if s.toNat ≤ 127 then some (s, body) else none

end Verif.Ssz
