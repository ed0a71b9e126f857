/-!
# Byte strings and fixed-width integers

Shared by the codec models. Byte strings (`Vec<u8>`, `Bytes`, `[u8; N]`) are `List UInt8`.
These definitions model the Rust standard library and `alloy` primitives used all over `/repo`
(`u64::to_le_bytes`, `u32::from_be_bytes`, `U256::from_be_slice`, ...), not a file of `/repo`.
-/

namespace Verif

abbrev Bytes := List UInt8

/-- `uN::from_be_bytes`, `U256::from_be_slice` (used at
crates/ethportal-api/src/types/distance.rs:59,94): most significant byte first. -/
def fromBe (bs : Bytes) : Nat := bs.foldl (fun acc b => acc * 256 + b.toNat) 0

/-- `uN::to_be_bytes`, `U256::to_be_bytes` with `n` bytes (used at
crates/ethportal-api/src/types/distance.rs:52). -/
def toBe : Nat → Nat → Bytes
  | 0, _ => []
  | n + 1, v => toBe n (v / 256) ++ [UInt8.ofNat (v % 256)]

/-- `uN::from_le_bytes` (used by the SSZ and e2store codecs): least significant byte first. -/
def fromLe : Bytes → Nat
  | [] => 0
  | b :: bs => b.toNat + 256 * fromLe bs

/-- `uN::to_le_bytes` with `n` bytes. -/
def toLe : Nat → Nat → Bytes
  | 0, _ => []
  | n + 1, v => UInt8.ofNat (v % 256) :: toLe n (v / 256)

end Verif
