import Verif.Model.EthCall
import Verif.Props.EthRpcSpec
import Verif.Props.BlockExecutorSpec

/-! # Specification of `eth_call`

What the EVM is started with, and what it should be answered: the true state of the block. -/

namespace Verif.EthCall
open Verif.Trie Verif.StateContent Verif.EvmState
open Verif.Evm (Active BlockEnvOf TxEnv)

/-- All that there is to know about the chain at a block. -/
structure World where
  account : Bytes → Option Account
  slot : Bytes → BitVec 256 → BitVec 256
  code : Id → Bytes
  blockHash : Nat → Id

/-- The accounts, slots and codes of the world are those of the state with this root; `db` has the nodes of the state
and of all storage. -/
structure IsWorld (env : EvmState.Env) (db : List Bytes) (root : Id) (state : PTrie) (w : World) : Prop where
  commits : Commits env.trie db root state
  account : ∀ a, AccountIs env state (env.trie.K a) (w.account a)
  missing : ∀ a i, w.account a = none → w.slot a i = 0
  storage : ∀ a x, w.account a = some x →
    ∃ t, Commits env.trie db x.storageRoot t ∧ ∀ i, SlotIs env t i (w.slot a i)
  code : ∀ ah x, AccountIs env state ah (some x) → env.trie.K (w.code x.codeHash) = x.codeHash
  noCode : w.code env.keccakEmpty = []

/-- The true answer to a question. -/
def World.reply (w : World) : (q : Ask) → q.Reply
  | .account a => (w.account a).map fun x => ⟨x.balance, x.nonce, x.codeHash⟩
  | .code h => w.code h
  | .slot a i => w.slot a i
  | .blockHash n => w.blockHash n

/-- The true result: every question gets the true answer. -/
def Program.play (w : World) : Program → Outcome
  | .done r => r
  | .ask q next => (next (w.reply q)).play w

/-- A program that asks for block hashes, when it gets the true answers. -/
def Program.AsksBlockHash (w : World) : Program → Prop
  | .done _ => False
  | .ask q next => (∃ n, q = .blockHash n) ∨ (next (w.reply q)).AsksBlockHash w

/-- The hash of the code of an account that a question is about. -/
def World.codeHashes (w : World) : Ask → List Id
  | .account a => ((w.account a).map (·.codeHash)).toList
  | _ => []

/-- A program that asks for a code only if it is empty or that of an account that it has asked for before (`seen`), and
for no block hashes, when it gets the true answers. -/
def Program.Usual (empty : Id) (w : World) : Program → List Id → Prop
  | .done _, _ => True
  | .ask q next, seen => (∀ h, q = .code h → h = empty ∨ h ∈ seen) ∧ (∀ n, q ≠ .blockHash n) ∧
      (next (w.reply q)).Usual empty w (w.codeHashes q ++ seen)

/-- How a result is reported: the output, or that there is none. -/
def Outcome.report : Outcome → Except Err Bytes
  | .success out => .ok out
  | .revert => .error .reverted
  | .halt r => .error (.halted r)
  | .invalid r => .error (.invalid r)

/-- The EVM ran to its end. -/
def Ran (r : Except Err Bytes) : Prop := ∃ o : Outcome, r = o.report

/-- The environment of the transaction that a request asks for at a block: what is not given is left as it is in `dflt`,
except for the gas, which is then that of the block, and the price, which is then the base fee. -/
structure AskedFor (t : Request) (h : Evm.Header) (dflt env : TxEnv) : Prop where
  caller : env.caller = t.sender.getD dflt.caller
  kind : env.kind = t.to.getD dflt.kind
  gasLimit : env.gasLimit = t.gas.getD h.gasLimit
  gasPrice : env.gasPrice = t.maxFee.getD (t.gasPrice.getD (h.baseFee.getD dflt.gasPrice))
  priorityFee : env.priorityFee = t.maxPriority
  maxBlobFee : env.maxBlobFee = t.maxBlobFee.getD dflt.maxBlobFee
  value : env.value = t.value.getD dflt.value
  data : env.data = t.input.getD (t.data.getD dflt.data)
  nonce : env.nonce = t.nonce.getD dflt.nonce
  chainId : env.chainId = t.chainId
  accessList : env.accessList = t.accessList.getD dflt.accessList
  blobHashes : env.blobHashes = t.blobHashes.getD dflt.blobHashes
  txType : env.txType = dflt.txType
  authorizations : env.authorizations = dflt.authorizations

variable {Hd Tx Rc Wd : Type}

/-- The program that answers a request at a block under the rules of a fork. -/
def RunsUnder (lib : Lib Hd) (f : Evm.SpecId) (t : Request) (h : Evm.Header) (p : Program) : Prop :=
  ∃ block tx, BlockEnvOf h block ∧ AskedFor t h lib.defaultTx tx ∧ p = lib.program f block tx

/-- Among the nodes and codes that the state network handed out is one that has the hash of a different node of `db` or
of a different code of an account. -/
def Collision (env : EvmState.Env) (nets : Nat → Network) (db : List Bytes) (state : PTrie) (w : World) : Prop :=
  (∃ i key bs n, nets i key = some bs ∧ Value.decode key bs = some (.trieNode n) ∧
    ∃ b ∈ db, n ≠ b ∧ env.trie.K n = env.trie.K b) ∨
  ∃ i key bs c, nets i key = some bs ∧ Value.decode key bs = some (.bytecode c) ∧
    ∃ ah x, AccountIs env state ah (some x) ∧ c ≠ w.code x.codeHash ∧ env.trie.K c = env.trie.K (w.code x.codeHash)

/-- The network has all of the state: the nodes, the storage and the code of every account, without proofs. -/
structure ServesAll (env : EvmState.Env) (net : Network) (db : List Bytes) (root : Id) (state : PTrie) (w : World) :
    Prop where
  nodes : Serves env net .accountTrieNode db root
  storage : ∀ a x, w.account a = some x → Serves env net (.storageTrieNode (env.trie.K a)) db x.storageRoot
  code : ServesCode env net state

/-- No leaf and no extension of the state and of the storage has an empty key. -/
def FullDepth (env : EvmState.Env) (db : List Bytes) (state : PTrie) (w : World) : Prop :=
  state.NoEmptyKeys ∧ ∀ a x t, w.account a = some x → Commits env.trie db x.storageRoot t → t.NoEmptyKeys

end Verif.EthCall
