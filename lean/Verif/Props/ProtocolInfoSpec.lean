import Verif.Model.ProtocolInfo

/-! # Specification: RLP as in appendix B of the Yellow Paper, and what a record says -/

namespace Verif.RlpFormat

/-- Big-endian, without zeros in front (equation 185). -/
def IsNumber (v : Nat) (bs : Bytes) : Prop := fromBe bs = v ∧ bs.head? ≠ some 0

/-- What stands before a payload of `n` bytes: one byte, or, from 56 on, the length of the length and the length. The code
is 128 for strings and 192 for lists. -/
def IsPrefix (code n : Nat) (bs : Bytes) : Prop :=
  (n < 56 ∧ ∃ b : UInt8, bs = [b] ∧ b.toNat = code + n) ∨
  (56 ≤ n ∧ ∃ (b : UInt8) (be : Bytes), bs = b :: be ∧ IsNumber n be ∧ be.length ≤ 8 ∧ b.toNat = code + 55 + be.length)

/-- A string: a byte below 128 stands for itself (equation 183). -/
def IsString (s bs : Bytes) : Prop :=
  (∃ b : UInt8, s = [b] ∧ b.toNat < 128 ∧ bs = s) ∨
  (¬ (∃ b : UInt8, s = [b] ∧ b.toNat < 128) ∧ ∃ p, IsPrefix 128 s.length p ∧ bs = p ++ s)

/-- A number: the string of its bytes. -/
def IsInt (v : Nat) (bs : Bytes) : Prop := ∃ be, IsNumber v be ∧ IsString be bs

/-- A list with this payload (equation 186). -/
def IsList (payload bs : Bytes) : Prop := ∃ p, IsPrefix 192 payload.length p ∧ bs = p ++ payload

/-- The entry `p` of a record: a list of the lowest and the highest version and the chain id, and possibly more. -/
def IsEntry (min max : UInt8) (chainId : UInt64) (more bs : Bytes) : Prop :=
  ∃ a b c, IsInt min.toNat a ∧ IsInt max.toNat b ∧ IsInt chainId.toNat c ∧ IsList (a ++ b ++ c ++ more) bs

/-- A version that has a name is called by it. -/
def Named (v : Versions.Version) : Prop := ∀ b, v = .unspecified b → 3 ≤ b.toNat

/-- The version with this number is in the range of an entry. -/
def Speaks (i : ProtocolInfo.Info) (v : UInt8) : Prop := i.min.toByte ≤ v ∧ v ≤ i.max.toByte

end Verif.RlpFormat
