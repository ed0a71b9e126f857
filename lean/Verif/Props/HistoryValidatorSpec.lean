import Verif.Model.HistoryValidator

/-! # Specification of the validation of legacy history content -/

namespace Verif.HistoryValidator
open Verif.Ssz Verif.ContentKey Verif.HistoryValue
open Verif.HeaderValidator (HeaderProof Net Summary Trusted Verdict)

variable {Hd Tx Rc Wd : Type}

/-- What `validate_content` answers. -/
abbrev Accepts (env : Env Hd Tx Rc Wd) (cache : List Summary) (key : Legacy) (bs : Bytes) : Prop :=
  (validateContent env cache key bs).1 = .accept

/-- The header commits to the transactions, the uncles and the withdrawals of the body. -/
structure CommitsBody (lib : Lib Hd Tx Rc Wd) (h : Hd) (b : Body Hd Tx Wd) : Prop where
  transactions : (lib.view h).transactionsRoot = lib.trieRoot (b.transactions.map lib.tx.enc)
  ommers : (lib.view h).ommersHash = lib.keccak (lib.ommers.enc b.ommers)
  withdrawals : (lib.view h).withdrawalsRoot = b.withdrawals.map fun ws => lib.trieRoot (ws.map lib.withdrawal.enc)

/-- The header commits to the receipts. -/
def CommitsReceipts (lib : Lib Hd Tx Rc Wd) (h : Hd) (rs : List Rc) : Prop :=
  (lib.view h).receiptsRoot = lib.trieRoot (rs.map lib.receipt.enc)

/-- Two different lists of items with the same trie root. -/
def RootCollision (lib : Lib Hd Tx Rc Wd) (a b : List Bytes) : Prop := a ≠ b ∧ lib.trieRoot a = lib.trieRoot b

/-- Two different byte strings with the same keccak hash. -/
def HashCollision (lib : Lib Hd Tx Rc Wd) (a b : Bytes) : Prop := a ≠ b ∧ lib.keccak a = lib.keccak b

/-- The answers of the history network for headers have been validated, with whatever was known then. -/
def HeadersValidated (env : Env Hd Tx Rc Wd) : Prop :=
  ∀ hash bs, env.headerContent hash = some bs →
    ∃ source headers cache, Accepts { env with source := source, headerContent := headers } cache (.headerByHash hash) bs

end Verif.HistoryValidator
