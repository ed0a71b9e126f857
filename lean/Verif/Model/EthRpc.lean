import Verif.Model.EvmState
import Verif.Model.HistoryValidator

/-! # The eth JSON-RPC endpoints (crates/rpc/src/eth_rpc.rs)

`eth_call` is in `EthCall`. -/

namespace Verif.EthRpc
open Verif.ContentKey Verif.HistoryValue
open Verif.HeaderValidator (Net)

/-- `EthApi` (eth_rpc.rs:36-51) with what the two networks answer during a request, in which no key is asked
twice. `stateRoot` is a field of the header. -/
structure Api (Hd Tx Rc Wd : Type) where
  lib : Lib Hd Tx Rc Wd
  net : Net
  evm : EvmState.Env
  stateRoot : Hd → Id
  history : Legacy → Option Bytes
  state : Option EvmState.Network

/-- `BlockId`; `tag` stands for `latest`, `pending` and so on, for which `as_number` is `None`. -/
inductive BlockId where
  | hash (h : Id)
  | number (n : UInt64)
  | tag
deriving DecidableEq, Repr

inductive Err where
  | network
  | decoding
  | contentType
  | tag
  | hydrated
  | stateDisabled
  | evm (e : EvmState.Err)
deriving DecidableEq, Repr

/-- The parts of `RpcBlock` that `fetch_block` fills in; the size is left out. -/
structure RpcBlock (Hd Wd : Type) where
  header : Hd
  transactions : List Id
  uncles : List Id
  withdrawals : Option (List Wd)

variable {Hd Tx Rc Wd : Type}

/-- `fetch_history_content` (eth_rpc.rs:161-171). -/
def fetchHistory (api : Api Hd Tx Rc Wd) (key : Legacy) : Except Err (Value Hd Tx Rc Wd) :=
  match api.history key with
  | none => .error .network
  | some bs =>
    match Value.decode api.lib api.net key bs with
    | none => .error .decoding
    | some v => .ok v

/-- The common part of `fetch_header_by_number` and `fetch_header_by_hash` (eth_rpc.rs:180-191, 195-207). -/
def fetchHeader (api : Api Hd Tx Rc Wd) (key : Legacy) : Except Err Hd :=
  match fetchHistory api key with
  | .error e => .error e
  | .ok (.header h _) => .ok h
  | .ok _ => .error .contentType

/-- `fetch_header_by_number` and `fetch_header_by_hash` (eth_rpc.rs:173-207). -/
def headerOf (api : Api Hd Tx Rc Wd) : BlockId → Except Err Hd
  | .hash h => fetchHeader api (.headerByHash h)
  | .number n => fetchHeader api (.headerByNumber n)
  | .tag => .error .tag

/-- `fetch_block_body` (eth_rpc.rs:242-252). -/
def fetchBody (api : Api Hd Tx Rc Wd) (hash : Id) : Except Err (Body Hd Tx Wd) :=
  match fetchHistory api (.blockBody hash) with
  | .error e => .error e
  | .ok (.body b) => .ok b
  | .ok _ => .error .contentType

/-- `fetch_block` (eth_rpc.rs:209-240). The hash of a transaction is that of its EIP-2718 encoding, as the
library computes it when decoding. -/
def fetchBlock (api : Api Hd Tx Rc Wd) (h : Hd) (hydrated : Bool) : Except Err (RpcBlock Hd Wd) :=
  if hydrated then .error .hydrated
  else
    match fetchBody api (api.lib.keccak (api.lib.header.enc h)) with
    | .error e => .error e
    | .ok b =>
      .ok ⟨h, b.transactions.map fun t => api.lib.keccak (api.lib.tx.enc t),
        b.ommers.map fun o => api.lib.keccak (api.lib.header.enc o), b.withdrawals⟩

/-- `get_block_by_number` and `get_block_by_hash` (eth_rpc.rs:59-75). -/
def getBlock (api : Api Hd Tx Rc Wd) (block : BlockId) (hydrated : Bool) : Except Err (RpcBlock Hd Wd) :=
  match headerOf api block with
  | .error e => .error e
  | .ok h => fetchBlock api h hydrated

/-- `evm_block_state` (eth_rpc.rs:256-269): the state network and the state root of a new reader. -/
def blockState (api : Api Hd Tx Rc Wd) (block : BlockId) : Except Err (EvmState.Network × Id) :=
  match api.state with
  | none => .error .stateDisabled
  | some net =>
    match headerOf api block with
    | .error e => .error e
    | .ok h => .ok (net, api.stateRoot h)

/-- `get_balance` (eth_rpc.rs:77-84). `rounds` bounds the rounds of a traversal (see `EvmState.walk`). -/
def getBalance (api : Api Hd Tx Rc Wd) (rounds : Nat) (address : Bytes) (block : BlockId) : Except Err (BitVec 256) :=
  match blockState api block with
  | .error e => .error e
  | .ok (net, root) =>
    match (EvmState.basic api.evm net rounds root address .new).1 with
    | .error e => .error (.evm e)
    | .ok none => .ok 0
    | .ok (some a) => .ok a.balance

/-- `get_storage_at` (eth_rpc.rs:86-96). -/
def getStorageAt (api : Api Hd Tx Rc Wd) (rounds : Nat) (address : Bytes) (slot : BitVec 256) (block : BlockId) :
    Except Err (BitVec 256) :=
  match blockState api block with
  | .error e => .error e
  | .ok (net, root) =>
    match (EvmState.storage api.evm net rounds root address slot .new).1 with
    | .error e => .error (.evm e)
    | .ok x => .ok x

/-- `get_code` (eth_rpc.rs:98-118). `basic` never has the code itself. -/
def getCode (api : Api Hd Tx Rc Wd) (rounds : Nat) (address : Bytes) (block : BlockId) : Except Err Bytes :=
  match blockState api block with
  | .error e => .error e
  | .ok (net, root) =>
    match EvmState.basic api.evm net rounds root address .new with
    | (.error e, _) => .error (.evm e)
    | (.ok none, _) => .ok []
    | (.ok (some a), s) =>
      if a.codeHash = api.evm.keccakEmpty then .ok []
      else
        match (EvmState.codeByHash api.evm net a.codeHash s).1 with
        | .error e => .error (.evm e)
        | .ok c => .ok c

end Verif.EthRpc
