import Verif.Model.Bytes

/-! # XOR metric (crates/ethportal-api/src/types/distance.rs) -/

namespace Verif

/-- A 32-byte DHT identifier: node id or content id. The code uses `[u8; 32]`. -/
abbrev Id := BitVec 256

/-- The 32 big-endian bytes of an id (`NodeId::raw`, `U256::to_be_bytes`). -/
def Id.bytes (x : Id) : Bytes := toBe 32 x.toNat

/-- `XorMetric::distance` (distance.rs:88-96): the byte loop, then `U256::from_be_slice`. -/
def xorDistanceBytes (x y : Bytes) : Nat := fromBe (List.zipWith (· ^^^ ·) x y)

/-- Distance between ids; the result is the `U256` inside `Distance` as a natural number. -/
def xorDistance (x y : Id) : Nat := xorDistanceBytes x.bytes y.bytes

/-- `U256::leading_zeros` for a `w`-bit number: bits are scanned from the top. -/
def leadingZeros : Nat → Nat → Nat
  | 0, _ => 0
  | w + 1, d => if d.testBit w then 0 else 1 + leadingZeros w d

/-- `Distance::log2` (distance.rs:42-48). -/
def distLog2 (d : Nat) : Option Nat :=
  if d = 0 then none else some (256 - leadingZeros 256 d)

/-- `Distance::big_endian` (distance.rs:51-53). -/
def distBigEndian (d : Nat) : Bytes := toBe 32 d

/-- `Distance::big_endian_u32` (distance.rs:56-60). -/
def distBigEndianU32 (d : Nat) : Nat := fromBe ((distBigEndian d).take 4)

end Verif
