import Verif.Model.HistoryContent
import Verif.Props.ProtocolInfoSpec
import Verif.Props.HistoryValueSpec
import Verif.Props.HistoryValidatorSpec

/-! # Specification of the content of the History network -/

namespace Verif.HistoryContent
open Verif.Rlp Verif.RlpFormat Verif.HistoryValue Verif.ContentKey

variable {α Ty St Log Hd Tx Rc Wd : Type}

/-- The bytes `p` are read as `x`, whatever follows them. -/
def Codec.Reads (c : Codec α) (x : α) (p : Bytes) : Prop := ∀ more, c.dec (p ++ more) = .ok (x, more)

/-- What is assumed of the library's encodings: `length` is the length of what `encode` writes, that is read back, and what is
read are some bytes at the front (at least one), whatever follows them. -/
structure Codec.Faithful (c : Codec α) : Prop where
  length : ∀ x, c.len x = (c.enc x).length
  reads : ∀ x, c.Reads x (c.enc x)
  front : ∀ bs x rest, c.dec bs = .ok (x, rest) → ∃ p, p ≠ [] ∧ bs = p ++ rest ∧ c.Reads x p

structure Env.Faithful (env : Env Ty St Log Hd Tx Rc Wd) : Prop where
  lib : env.lib.Faithful
  txType : env.txType.Faithful
  status : env.status.Faithful
  log : env.log.Faithful
  body : env.body.Faithful
  /-- An envelope has the type of the transaction and the receipt in it. -/
  envelope : ∀ r r', env.envelope r = env.envelope r' → r = r'

/-- The bytes of a list of things, one after the other. -/
inductive Pieces (R : α → Bytes → Prop) : List α → Bytes → Prop where
  | nil : Pieces R [] []
  | cons {x p xs bs} : R x p → Pieces R xs bs → Pieces R (x :: xs) (p ++ bs)

/-- A list of a list of things. -/
def IsListOf (R : α → Bytes → Prop) (xs : List α) (bs : Bytes) : Prop := ∃ payload, Pieces R xs payload ∧ IsList payload bs

/-- A receipt of EIP-7642: `[tx-type, post-state-or-status, cumulative-gas, logs]`. -/
def IsReceipt (env : Env Ty St Log Hd Tx Rc Wd) (r : Receipt Ty St Log) (bs : Bytes) : Prop :=
  ∃ a b c d, env.txType.Reads r.txType a ∧ env.status.Reads r.status b ∧ IsInt r.gasUsed.toNat c ∧
    IsListOf env.log.Reads r.logs d ∧ IsList (a ++ b ++ c ++ d) bs

/-- The kind of value that belongs to a key. -/
inductive Belongs : History → Value Ty St Log Hd Tx Wd → Prop where
  | body (n b) : Belongs (.blockBody n) (.body b)
  | receipts (n rs) : Belongs (.blockReceipts n) (.receipts rs)

/-- The header commits to the value: to the transactions, uncles and withdrawals of a body, and to receipts with their
bloom filters. -/
def Commits (env : Env Ty St Log Hd Tx Rc Wd) (h : Hd) : Value Ty St Log Hd Tx Wd → Prop
  | .body b => HistoryValidator.CommitsBody env.lib h b
  | .receipts rs => HistoryValidator.CommitsReceipts env.lib h (rs.map env.envelope)

end Verif.HistoryContent
