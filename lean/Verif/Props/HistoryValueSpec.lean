import Verif.Model.HistoryValue

/-! # Specification of the legacy history content values -/

namespace Verif.HistoryValue
open Verif.Ssz Verif.SszT Verif.ContentKey
open Verif.HeaderValidator (HeaderProof Net Kind decodedKind)

/-- What is assumed of an encoding of the library: an encoded value is read back, whatever follows it, and a
value is only read from bytes that begin with its encoding. -/
structure Wire.Faithful {α : Type} (w : Wire α) : Prop where
  reads : ∀ x rest, w.dec (w.enc x ++ rest) = some x
  only : ∀ b x, w.dec b = some x → w.enc x <+: b

structure Lib.Faithful {Hd Tx Rc Wd : Type} (lib : Lib Hd Tx Rc Wd) : Prop where
  header : lib.header.Faithful
  ommers : lib.ommers.Faithful
  tx : lib.tx.Faithful
  receipt : lib.receipt.Faithful
  withdrawal : lib.withdrawal.Faithful

variable {Hd Tx Rc Wd : Type}

/-- The values that belong to a key: a header of at most 2048 bytes with the kind of proof of its fork; a
body, with no uncles if it has withdrawals; at most 16384 receipts; at most 256 headers (that is in the type)
of at most 2048 bytes. -/
inductive Belongs (lib : Lib Hd Tx Rc Wd) (net : Net) : Legacy → Value Hd Tx Rc Wd → Prop where
  | byHash (hash h p) : (lib.header.enc h).length ≤ 2048 → p.kind = decodedKind net (lib.hdr h) →
      Belongs lib net (.headerByHash hash) (.header h p)
  | byNumber (n h p) : (lib.header.enc h).length ≤ 2048 → p.kind = decodedKind net (lib.hdr h) →
      Belongs lib net (.headerByNumber n) (.header h p)
  | body (hash b) : (b.withdrawals ≠ none → b.ommers = []) → Belongs lib net (.blockBody hash) (.body b)
  | receipts (hash rs) : rs.length ≤ 16384 → Belongs lib net (.blockReceipts hash) (.receipts rs)
  | ephemeralHeaders (hash n) (hs : BList Hd 256) : (∀ h ∈ hs.1, (lib.header.enc h).length ≤ 2048) →
      Belongs lib net (.ephemeralFind hash n) (.ephemeralHeaders hs)
  | ephemeralOffer (hash h) : (lib.header.enc h).length ≤ 2048 →
      Belongs lib net (.ephemeralOffer hash) (.ephemeralOffer h)

/-- `e` is not longer than `b`, and if it is as long it is `b`. -/
def Shortest (e b : Bytes) : Prop := e.length ≤ b.length ∧ (e.length = b.length → e = b)

end Verif.HistoryValue
