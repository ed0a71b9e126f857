import Verif.Model.Distance

/-! # Range content ids (crates/ethportal-api/src/types/content_key/content_id.rs) -/

namespace Verif

/-- `CYCLE_BITS_BITMAP` (content_id.rs:4): `(1 << 16) - 1`. -/
def cycleBitmap : BitVec 64 := (1#64 <<< 16) - 1#64

/-- The 64-bit prefix of `range_content_id` (content_id.rs:9-15). `rotate_right` and `reverse_bits`
are the bit-vector operations of the same name. -/
def rangeIdPrefix (blockNumber : BitVec 64) : BitVec 64 :=
  let cycleBits := blockNumber &&& cycleBitmap
  let offsetBits := blockNumber &&& ~~~cycleBitmap
  cycleBits.rotateRight 16 ||| offsetBits.reverse

/-- `range_content_id` (content_id.rs:7-21): `U256::from_limbs([content_type, 0, 0, prefix])`, least
significant limb first. The final `to_be_bytes` is `Id.bytes`. -/
def rangeContentId (blockNumber : BitVec 64) (contentType : UInt8) : Id :=
  rangeIdPrefix blockNumber ++ (0#128 ++ (contentType.toBitVec.zeroExtend 64))

end Verif
