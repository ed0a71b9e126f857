import Verif.Model.Distance

/-! # Random node ids (crates/ethportal-api/src/utils/bytes.rs, crates/ethportal-api/src/types/node_id.rs) -/

namespace Verif

/-- `random_32byte_array` (utils/bytes.rs:59-82). The random source is a parameter: `fill` are the
bytes drawn by `fill_bytes` for the positions after the first non-zero byte, `pick` the value drawn
by `random_range`. `first_zero_bytes == 32` cannot happen because the argument is a `u8`. -/
def random32 (leadingBitZeros : Nat) (pick : UInt8) (fill : Bytes) : Bytes :=
  List.replicate (leadingBitZeros / 8) 0 ++ pick :: fill

/-- The range handed to `random_range` (utils/bytes.rs:70-79): `128..=255` when the count is a
multiple of 8, otherwise `min..2*min` with `min = 128 * 0.5^k` truncated to `u8`. The `f32` product
is exact for `k` in 1..7, so `min = 128 / 2^k`; `saturating_mul` does not saturate for `k ≥ 1`. -/
def pickRange (leadingBitZeros : Nat) : Nat × Nat :=
  let k := leadingBitZeros % 8
  if k = 0 then (128, 256) else (128 / 2 ^ k, 2 * (128 / 2 ^ k))

/-- What the random source guarantees: `pick` in its range and `fill` long enough to complete 32
bytes. -/
def RandomOk (leadingBitZeros : Nat) (pick : UInt8) (fill : Bytes) : Prop :=
  (pickRange leadingBitZeros).1 ≤ pick.toNat ∧ pick.toNat < (pickRange leadingBitZeros).2 ∧
  leadingBitZeros / 8 + 1 + fill.length = 32

/-- `generate_random_node_id` (types/node_id.rs:9-18). `255 - target_bucket_idx` is a `u8`
subtraction that cannot underflow. The result is returned as 32 bytes. -/
def generateRandomNodeId (bucket : UInt8) (loc : Id) (pick : UInt8) (fill : Bytes) : Bytes :=
  let distanceLeadingZeroes := 255 - bucket.toNat
  let randomDistance := random32 distanceLeadingZeroes pick fill
  distBigEndian (xorDistanceBytes loc.bytes randomDistance)

/-- `generate_random_node_ids` (types/node_id.rs:26-51). `none` is the panic of the `assert!`.
`rnd index` is the 32 random bytes drawn for the id with that index: first byte and the rest.
`checked_shr`/`checked_shl` by 8 give `None`, hence 0. -/
def generateRandomNodeIds (uniqueBits : Nat) (rnd : Nat → UInt8 × Bytes) : Option (List Bytes) :=
  if uniqueBits ≤ 8 then
    let insignificantBits := 8 - uniqueBits
    let mask : UInt8 := if uniqueBits < 8 then 255 >>> (UInt8.ofNat uniqueBits) else 0
    some ((List.range (2 ^ uniqueBits)).map fun index =>
      let hi : UInt8 :=
        if insignificantBits < 8 then (UInt8.ofNat index) <<< (UInt8.ofNat insignificantBits) else 0
      (((rnd index).1 &&& mask) ||| hi) :: (rnd index).2)
  else none

end Verif
