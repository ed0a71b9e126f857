import Verif.Model.Bytes

/-! # Trie path encoding (crates/ethportal-api/src/types/state_trie/nibbles.rs) -/

namespace Verif.Nibbles

/-- `Nibbles::try_from_unpacked_nibbles` (nibbles.rs:16-26): at most 64 nibbles, each at most 15. -/
def tryFromUnpacked (ns : Bytes) : Option Bytes :=
  if ns.length > 64 then none
  else if ns.all (fun n => n ≤ 0xF) then some ns
  else none

/-- `(x[0] << 4) | x[1]` (nibbles.rs:54,59). -/
def packPair (a b : UInt8) : UInt8 := (a <<< 4) ||| b

/-- `unpack_nibble_pair` (nibbles.rs:32-34). -/
def unpackPair (p : UInt8) : UInt8 × UInt8 := (p >>> 4, p &&& 0xF)

/-- `chunks_exact(2)` with `packPair` (nibbles.rs:52-54,57-59); an unpaired last element would be
skipped by `chunks_exact`. -/
def packAll : Bytes → Bytes
  | a :: b :: rest => packPair a b :: packAll rest
  | _ => []

/-- `unpack_nibbles` (nibbles.rs:36-41) and the loop at nibbles.rs:103-105. -/
def unpackAll : Bytes → Bytes
  | [] => []
  | p :: rest => (unpackPair p).1 :: (unpackPair p).2 :: unpackAll rest

/-- `Encode for Nibbles` (nibbles.rs:49-61). -/
def encode (ns : Bytes) : Bytes :=
  if ns.length % 2 = 0 then 0 :: packAll ns
  else
    match ns with
    | [] => []  -- not reached: the length is odd
    | n :: rest => (0x10 ||| n) :: packAll rest

/-- `Decode for Nibbles` (nibbles.rs:73-108). -/
def decode (bs : Bytes) : Option Bytes :=
  match bs with
  | [] => none
  | first :: packed =>
    let flag := (unpackPair first).1
    let low := (unpackPair first).2
    if flag = 0 then
      if low ≠ 0 then none else tryFromUnpacked (unpackAll packed)
    else if flag = 1 then tryFromUnpacked (low :: unpackAll packed)
    else none

end Verif.Nibbles
