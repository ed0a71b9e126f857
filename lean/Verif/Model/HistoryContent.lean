import Verif.Model.Rlp
import Verif.Model.HistoryValidator

/-! # Content values of the History network (crates/ethportal-api/src/types/content_value/history.rs)

Receipts travel without their bloom filter, as in EIP-7642. The RLP of lists and numbers is modelled; that of the types of
the library `alloy` (the type of a transaction, the status of a receipt, a log, a block body) is arbitrary. -/

namespace Verif.HistoryContent
open Verif.Rlp Verif.HistoryValue Verif.ContentKey

/-- `Encodable` and `Decodable` of a type: `encode`, `length`, and `decode`, which leaves what follows. -/
structure Codec (α : Type) where
  enc : α → Bytes
  len : α → Nat
  dec : Bytes → Except Err (α × Bytes)

variable {α Ty St Log Hd Tx Rc Wd : Type}

/-- The loop of `Decodable for Vec<T>` (alloy-rlp). A decoder that reads nothing would make it endless; there is none
here. -/
def items (dec : Bytes → Except Err (α × Bytes)) (bs : Bytes) : Except Err (List α) :=
  if bs.isEmpty then .ok []
  else match dec bs with
    | .error e => .error e
    | .ok (x, rest) =>
      if rest.length < bs.length then
        match items dec rest with
        | .error e => .error e
        | .ok xs => .ok (x :: xs)
      else .error .custom
termination_by bs.length

/-- The sum in `rlp_list_header` (alloy-rlp). -/
def total (c : Codec α) (xs : List α) : Nat := (xs.map c.len).sum

/-- `Encodable for Vec<T>` and `Decodable for Vec<T>` (alloy-rlp). -/
def vec (c : Codec α) : Codec (List α) where
  enc xs := Header.encode ⟨true, total c xs⟩ ++ (xs.map c.enc).flatten
  len xs := lengthOfLength (total c xs) + total c xs
  dec buf :=
    match Header.decode buf with
    | .error e => .error e
    | .ok (h, buf) =>
      if h.list then
        match items c.dec (buf.take h.length) with
        | .error e => .error e
        | .ok xs => .ok (xs, buf.drop h.length)
      else .error .unexpectedString

/-- `u64` (alloy-rlp). -/
def u64 : Codec UInt64 where
  enc v := encodeInt v.toNat
  len v := lengthInt v.toNat
  dec buf := match decodeInt 8 buf with
    | .error e => .error e
    | .ok (v, buf) => .ok (UInt64.ofNat v, buf)

/-- `Eip7642Receipt` with the `Receipt` in it (history.rs:62-66). -/
structure Receipt (Ty St Log : Type) where
  txType : Ty
  status : St
  gasUsed : UInt64
  logs : List Log
deriving DecidableEq, Repr

/-- What is used of the library. `envelope` is `ReceiptEnvelope::from_typed`, which computes the bloom filter. -/
structure Env (Ty St Log Hd Tx Rc Wd : Type) where
  lib : Lib Hd Tx Rc Wd
  txType : Codec Ty
  status : Codec St
  log : Codec Log
  /-- `BlockBody`, a wrapper around that of the library (block_body.rs:20-24) -/
  body : Codec (Body Hd Tx Wd)
  envelope : Receipt Ty St Log → Rc

variable (env : Env Ty St Log Hd Tx Rc Wd)

/-- `Eip7642Receipt::rlp_header` (history.rs:73-82). -/
def Receipt.header (r : Receipt Ty St Log) : Header :=
  ⟨true, env.txType.len r.txType + env.status.len r.status + u64.len r.gasUsed + (vec env.log).len r.logs⟩

/-- `length` (history.rs:85-88). -/
def Receipt.length (r : Receipt Ty St Log) : Nat := lengthOfLength (r.header env).length + (r.header env).length

/-- `encode` (history.rs:90-96). -/
def Receipt.encode (r : Receipt Ty St Log) : Bytes :=
  (r.header env).encode ++ env.txType.enc r.txType ++ env.status.enc r.status ++ u64.enc r.gasUsed ++
    (vec env.log).enc r.logs

/-- `decode` (history.rs:99-126). -/
def Receipt.decode (buf : Bytes) : Except Err (Receipt Ty St Log × Bytes) := do
  let (header, buf) ← Header.decode buf
  if !header.list then throw .unexpectedString
  let remaining := buf.length
  let (txType, buf) ← env.txType.dec buf
  let (status, buf) ← env.status.dec buf
  let (gasUsed, buf) ← u64.dec buf
  let (logs, buf) ← (vec env.log).dec buf
  if buf.length + header.length ≠ remaining then throw .unexpectedLength
  return (⟨txType, status, gasUsed, logs⟩, buf)

/-- `Eip7642Receipts`, a wrapper of the list (history.rs:128-129). -/
def receipts : Codec (List (Receipt Ty St Log)) :=
  vec { enc := Receipt.encode env, len := Receipt.length env, dec := Receipt.decode env }

/-- `HistoryContentValue` (history.rs:18-21). -/
inductive Value (Ty St Log Hd Tx Wd : Type) where
  | body (b : Body Hd Tx Wd)
  | receipts (rs : List (Receipt Ty St Log))

/-- `encode` (history.rs:27-34). -/
def Value.encode : Value Ty St Log Hd Tx Wd → Bytes
  | .body b => env.body.enc b
  | .receipts rs => (HistoryContent.receipts env).enc rs

/-- `alloy_rlp::decode_exact`: nothing may be left. -/
def decodeExact (c : Codec α) (buf : Bytes) : Except Err α :=
  match c.dec buf with
  | .error e => .error e
  | .ok (x, rest) => if rest.isEmpty then .ok x else .error .unexpectedLength

/-- `decode` (history.rs:36-51); `none` is `UnknownContent`. -/
def Value.decode (key : History) (buf : Bytes) : Option (Value Ty St Log Hd Tx Wd) :=
  match key with
  | .blockBody _ => (decodeExact env.body buf).toOption.map .body
  | .blockReceipts _ => (decodeExact (HistoryContent.receipts env) buf).toOption.map .receipts

/-- `Eip7642Receipts::root` (history.rs:139-147). -/
def root (rs : List (Receipt Ty St Log)) : Id := env.lib.trieRoot ((rs.map env.envelope).map env.lib.receipt.enc)

/-- `validate` (history.rs:54-61), with `Eip7642Receipts::validate_against_header` (132-137). -/
def Value.validate (v : Value Ty St Log Hd Tx Wd) (h : Hd) : Bool :=
  match v with
  | .body b => HistoryValidator.validateBody env.lib b h
  | .receipts rs => root env rs = (env.lib.view h).receiptsRoot

end Verif.HistoryContent
