import Verif.Model.HistoryNode
import Verif.Props.HistoryValidatorSpec

/-! # Specification: what a history node may store, answer and pass on -/

namespace Verif.Props.HistoryNodes
open Verif.ContentKey Verif.HistoryValue Verif.HistoryValidator Verif.HistoryNode
open Verif.HeaderValidator (HeaderProof Summary)

variable {Hd Tx Rc Wd : Type}

/-- Content that peers sent. -/
def received (es : List Ev) : List (Legacy × Bytes) :=
  es.filterMap fun e => match e with | .arrived key content _ => some (key, content) | _ => none

/-- Content that the operator put in. -/
def operated (es : List Ev) : List (Legacy × Bytes) :=
  es.filterMap fun e =>
    match e with
    | .operator key content _ => some (key, content)
    | .operatorKilled key content _ _ _ _ _ => some (key, content)
    | _ => none

/-- The hashes for which headers were looked up in the store. -/
def asked (es : List Ev) : List Id :=
  es.filterMap fun e => match e with | .headerStored k => some k | _ => none

/-- What the beacon network answered when asked for historical summaries. -/
def sources (es : List Ev) : List (Nat → Option (List Summary)) :=
  es.filterMap fun e => match e with | .arrived _ _ m => some m.source | _ => none

/-- All keys that occur. -/
def keys (es : List Ev) : List Legacy :=
  (received es).map Prod.fst ++ (operated es).map Prod.fst ++ (asked es).map .headerByHash

/-- No two different keys that occur have the same content id. -/
def NoIdCollision (n : Node Hd Tx Rc Wd) (ks : List Legacy) : Prop :=
  ∀ a ∈ ks, ∀ b ∈ ks, n.db.idOf a.toBytes = n.db.idOf b.toBytes → a = b

/-- The operator did not put a header under the hash of another block. -/
def HonestOperator (n : Node Hd Tx Rc Wd) (es : List Ev) : Prop :=
  ∀ k bs, (.headerByHash k, bs) ∈ operated es →
    ∀ h p, Value.decode n.lib n.net (.headerByHash k) bs = some (.header h p) → n.lib.keccak (n.lib.header.enc h) = k

/-- The historical summaries that were answered are beginnings of this list. -/
def SummariesTrue (es : List Ev) (summaries : List Summary) : Prop :=
  ∀ f ∈ sources es, ∀ e l, f e = some l → l <+: summaries

/-- The proof of this header was accepted, with summaries that the beacon network had answered (for what that says about the
header, see C31 and C32). -/
def Proven (n : Node Hd Tx Rc Wd) (es : List Ev) (h : Hd) (p : HeaderProof) : Prop :=
  ∃ cache, ∃ source ∈ sources es, (cache = [] ∨ ∃ f ∈ sources es, ∃ e, f e = some cache) ∧
    (HeaderValidator.validate n.H n.net n.trusted cache source (n.lib.hdr h) p).1 = .accept

/-- `h` is a header with this hash, and peers sent it or the operator put it in. -/
def HeaderOf (n : Node Hd Tx Rc Wd) (es : List Ev) (k : Id) (h : Hd) : Prop :=
  n.lib.keccak (n.lib.header.enc h) = k ∧
    ∃ bs p, ((.headerByHash k, bs) ∈ received es ∨ (.headerByHash k, bs) ∈ operated es) ∧
      Value.decode n.lib n.net (.headerByHash k) bs = some (.header h p)

/-- The content is what its key says: a proven header with this hash or number, or a body or receipts to which the header with
this hash commits (of the withdrawals, only if the body has some: C58). -/
def Genuine (n : Node Hd Tx Rc Wd) (es : List Ev) : Legacy → Bytes → Prop
  | .headerByHash k, bs => ∃ h p, Value.decode n.lib n.net (.headerByHash k) bs = some (.header h p) ∧
      n.lib.keccak (n.lib.header.enc h) = k ∧ Proven n es h p
  | .headerByNumber number, bs => ∃ h p, Value.decode n.lib n.net (.headerByNumber number) bs = some (.header h p) ∧
      (n.lib.view h).number = number ∧ Proven n es h p
  | .blockBody k, bs => ∃ b h, Value.decode n.lib n.net (.blockBody k) bs = some (.body b) ∧ HeaderOf n es k h ∧
      (n.lib.view h).ommersHash = n.lib.keccak (n.lib.ommers.enc b.ommers) ∧
      (n.lib.view h).transactionsRoot = n.lib.trieRoot (b.transactions.map n.lib.tx.enc) ∧
      ∀ ws, b.withdrawals = some ws → (n.lib.view h).withdrawalsRoot = some (n.lib.trieRoot (ws.map n.lib.withdrawal.enc))
  | .blockReceipts k, bs => ∃ rs h, Value.decode n.lib n.net (.blockReceipts k) bs = some (.receipts rs) ∧
      HeaderOf n es k h ∧ CommitsReceipts n.lib h rs
  | .ephemeralFind _ _, _ => False
  | .ephemeralOffer _, _ => False

/-- What the node can give to others: the content in its store, with which it answers requests and lookups, and the content
that its tasks hold, which they store, return and pass on. -/
def Gives (n : Node Hd Tx Rc Wd) (s : HistoryNode.State) (key : Legacy) (content : Bytes) : Prop :=
  get n s.store key = some content ∨ (key, content) ∈ s.held

/-- A node that began with an empty database and went through these events. -/
def Lives (n : Node Hd Tx Rc Wd) (es : List Ev) (s : HistoryNode.State) : Prop :=
  ∃ cfg sps store, Store.create n.db cfg sps [] = .ok store ∧ run n (fresh (cfg, store)) es = .ok s

end Verif.Props.HistoryNodes
