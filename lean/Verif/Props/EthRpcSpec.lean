import Verif.Model.EthRpc
import Verif.Props.EvmStateSpec
import Verif.Props.HistoryValidatorSpec

/-! # Specification of the eth JSON-RPC endpoints -/

namespace Verif.EthRpc
open Verif.ContentKey Verif.HistoryValue Verif.HistoryValidator Verif.Trie
open Verif.HeaderValidator (Net Summary Trusted)

variable {Hd Tx Rc Wd : Type}

/-- Everything the history network hands out was accepted by its validator at some time, with the hash function `H` and the
trusted roots, which in turn was handed validated headers; `seen` are the headers it was handed. -/
def HistoryValidated (api : Api Hd Tx Rc Wd) (H : Id → Id → Id) (trusted : Trusted) (seen : List Hd) : Prop :=
  ∀ key bs, api.history key = some bs → ∃ (env : HistoryValidator.Env Hd Tx Rc Wd) (cache : List Summary),
    env.lib = api.lib ∧ env.net = api.net ∧ env.H = H ∧ env.trusted = trusted ∧ HeadersValidated env ∧
    Accepts env cache key bs ∧
    ∀ k hb h p, env.headerContent k = some hb →
      Value.decode env.lib env.net (.headerByHash k) hb = some (.header h p) → h ∈ seen

/-- Everything the state network hands out was accepted by its validator. -/
def StateValidated (api : Api Hd Tx Rc Wd) : Prop := ∀ net, api.state = some net → EvmState.Validated api.evm net

/-- The header is the one of the block: it has this hash, or it has this number and a proof that it belongs to
the chain. -/
def IsHeader (api : Api Hd Tx Rc Wd) (H : Id → Id → Id) (trusted : Trusted) (h : Hd) : BlockId → Prop
  | .hash k => api.lib.keccak (api.lib.header.enc h) = k
  | .number n => (api.lib.view h).number = n ∧
      ∃ (source : Nat → Option (List Summary)) (cache : List Summary) (p : HeaderValidator.HeaderProof),
        (HeaderValidator.validate H api.net trusted cache source (api.lib.hdr h) p).1 = .accept
  | .tag => False

/-- Among the nodes that the state network handed out is one that has the hash of a different node of `db`. -/
def NodeCollision (api : Api Hd Tx Rc Wd) (db : List Bytes) : Prop :=
  ∃ net key bs n, api.state = some net ∧ net key = some bs ∧
    StateContent.Value.decode key bs = some (.trieNode n) ∧ ∃ b ∈ db, n ≠ b ∧ api.evm.trie.K n = api.evm.trie.K b

/-- The network answers the header of the block. -/
def Answers (api : Api Hd Tx Rc Wd) (block : BlockId) (h : Hd) : Prop :=
  ∃ key bs p, (match block with | .hash k => key = .headerByHash k | .number n => key = .headerByNumber n | .tag => False) ∧
    api.history key = some bs ∧ Value.decode api.lib api.net key bs = some (.header h p)

end Verif.EthRpc
