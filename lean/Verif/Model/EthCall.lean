import Verif.Model.EthRpc
import Verif.Model.BlockExecutor

/-! # `eth_call` (crates/rpc/src/eth_rpc.rs, crates/evm)

The EVM is the library `revm` and not modelled: it is any program that asks for accounts, codes, slots and block hashes,
one after the other, and ends with a result. Which program runs is decided by the fork, the block environment and the
transaction environment it is started with. -/

namespace Verif.EthCall
open Verif.EvmState (Network Reader)
open Verif.Evm (SpecId BlockEnv TxEnv TxKind Address getSpecId createBlockEnv)

/-- `TransactionRequest` (alloy). Data, access lists, blob hashes and authorizations are opaque (`Nat`), as in
`Evm.TxEnv`; `input` and `data` are the two fields of `TransactionInput`. Other fields of the library are left out. -/
structure Request where
  sender : Option Address
  to : Option TxKind
  gasPrice : Option Nat
  maxFee : Option Nat
  maxPriority : Option Nat
  maxBlobFee : Option Nat
  gas : Option Nat
  value : Option Nat
  input : Option Nat
  data : Option Nat
  nonce : Option Nat
  chainId : Option Nat
  accessList : Option Nat
  blobHashes : Option Nat
  txType : Option Nat
  authorizations : Option Nat

/-- `TransactionInput::input` (alloy). -/
def Request.callData (t : Request) : Option Nat := t.input.or t.data

/-- `<TransactionRequest as TxEnvModifier>::modify` (crates/evm/src/tx_env_modifier.rs:102-140). An `if let Some(x)` that
sets a field is written as the field with `getD`. -/
def Request.modify (t : Request) (env : TxEnv) : TxEnv :=
  let env := { env with caller := t.sender.getD env.caller }
  let env := { env with kind := t.to.getD env.kind }
  let env := { env with gasPrice := t.gasPrice.getD env.gasPrice }
  let env := { env with gasPrice := t.maxFee.getD env.gasPrice }
  let env := { env with priorityFee := t.maxPriority }
  let env := { env with maxBlobFee := t.maxBlobFee.getD env.maxBlobFee }
  let env := { env with gasLimit := t.gas.getD env.gasLimit }
  let env := { env with value := t.value.getD env.value }
  let env := { env with data := t.callData.getD env.data }
  let env := { env with nonce := t.nonce.getD env.nonce }
  let env := { env with chainId := t.chainId }
  let env := { env with accessList := t.accessList.getD env.accessList }
  { env with blobHashes := t.blobHashes.getD env.blobHashes }

/-- The two defaults of `call` (eth_rpc.rs:123-133). -/
def Request.fill (t : Request) (h : Evm.Header) : Request :=
  let t := match t.gas with | none => { t with gas := some h.gasLimit } | some _ => t
  match t.gasPrice with | none => { t with gasPrice := h.baseFee } | some _ => t

/-- `AccountInfo` (revm) as `basic_async` fills it in (crates/rpc/src/evm_state.rs:246-256): never with the code. -/
structure Info where
  balance : BitVec 256
  nonce : UInt64
  codeHash : Id
deriving DecidableEq, Repr

def Info.of (a : Trie.Account) : Info := ⟨a.balance, a.nonce, a.codeHash⟩

/-- What the EVM can ask: the methods of `revm::Database` (crates/evm/src/async_db.rs:71-87). -/
inductive Ask where
  | account (address : Bytes)
  | code (codeHash : Id)
  | slot (address : Bytes) (index : BitVec 256)
  | blockHash (number : Nat)

/-- The type of the answers. -/
def Ask.Reply : Ask → Type
  | .account _ => Option Info
  | .code _ => Bytes
  | .slot _ _ => BitVec 256
  | .blockHash _ => Id

/-- `ExecutionResult` (revm); `invalid` is the `EVMError` of a transaction or header that the EVM refuses. Logs, gas and
the changed state are left out, `call` does not use them. -/
inductive Outcome where
  | success (output : Bytes)
  | revert
  | halt (reason : Nat)
  | invalid (reason : Nat)
deriving DecidableEq, Repr

/-- A run of the EVM: a result, or a question and how to go on with the answer. -/
inductive Program where
  | done (r : Outcome)
  | ask (q : Ask) (next : q.Reply → Program)

/-- `EVMError::Database` with the error of the database; block hashes are always an error. -/
inductive DbErr where
  | state (e : EvmState.Err)
  | blockHash
deriving DecidableEq, Repr

/-- `AsyncDatabase for EvmBlockState` (crates/rpc/src/evm_state.rs:243-289). -/
def answer (env : EvmState.Env) (net : Network) (rounds : Nat) (root : Id) (s : Reader) :
    (q : Ask) → Except DbErr q.Reply × Reader
  | .account a =>
    match EvmState.basic env net rounds root a s with
    | (.error e, s) => (.error (.state e), s)
    | (.ok x, s) => (.ok (x.map Info.of), s)
  | .code h =>
    match EvmState.codeByHash env net h s with
    | (.error e, s) => (.error (.state e), s)
    | (.ok c, s) => (.ok c, s)
  | .slot a i =>
    match EvmState.storage env net rounds root a i s with
    | (.error e, s) => (.error (.state e), s)
    | (.ok x, s) => (.ok x, s)
  | .blockHash _ => (.error .blockHash, s)

/-- `evm.replay()` with a `WrapAsyncDatabase` (crates/evm/src/async_db.rs:89-110). An error of the database ends the
run. `nets i` is what the state network answers at the time of the question `i`. That a blocking task can fail to be
joined is left out. -/
def replay (env : EvmState.Env) (nets : Nat → Network) (rounds : Nat) (root : Id) :
    Program → Nat → Reader → Except DbErr Outcome
  | .done r, _, _ => .ok r
  | .ask q next, i, s =>
    match answer env (nets i) rounds root s q with
    | (.error e, _) => .error e
    | (.ok x, s) => replay env nets rounds root (next x) (i + 1) s

/-- The errors of `call`: before the EVM runs, of the database, of the EVM; `Reverted`; the reason of a halt. -/
inductive Err where
  | request (e : EthRpc.Err)
  | database (e : DbErr)
  | invalid (reason : Nat)
  | reverted
  | halted (reason : Nat)
deriving DecidableEq, Repr

/-- The EVM of the library: the program for a fork, a block and a transaction; and `TxEnv::default()`. `view` are the
fields of the header that `call` uses. -/
structure Lib (Hd : Type) where
  program : SpecId → BlockEnv → TxEnv → Program
  defaultTx : TxEnv
  view : Hd → Evm.Header

/-- `create_evm` (crates/evm/src/lib.rs:49-63): the program that will run. -/
def createEvm {Hd : Type} (lib : Lib Hd) (block : BlockEnv) (t : Request) : Program :=
  lib.program (getSpecId block.number) block (t.modify lib.defaultTx)

variable {Hd Tx Rc Wd : Type}

/-- `call` (eth_rpc.rs:120-157). -/
def call (api : EthRpc.Api Hd Tx Rc Wd) (lib : Lib Hd) (nets : Nat → Network) (rounds : Nat) (t : Request)
    (block : EthRpc.BlockId) : Except Err Bytes :=
  match api.state with
  | none => .error (.request .stateDisabled)
  | some _ =>
    match EthRpc.headerOf api block with
    | .error e => .error (.request e)
    | .ok h =>
      match replay api.evm nets rounds (api.stateRoot h)
          (createEvm lib (createBlockEnv (lib.view h)) (t.fill (lib.view h))) 0 .new with
      | .error e => .error (.database e)
      | .ok (.success out) => .ok out
      | .ok .revert => .error .reverted
      | .ok (.halt r) => .error (.halted r)
      | .ok (.invalid r) => .error (.invalid r)

end Verif.EthCall
