import Verif.Model.SszTypes
import Verif.Model.HeaderValidator

/-! # Legacy history content values (crates/ethportal-api/src/types/content_value/legacy_history.rs,
types/execution/{header_with_proof,block_body,receipts,ssz_header,ephermeral_header}.rs)

Headers, transactions, receipts and withdrawals are types of the library `alloy`, which is not in /repo.
They are arbitrary types here, with their encodings given by `Lib`. -/

namespace Verif.HistoryValue
open Verif.Ssz Verif.SszT Verif.ContentKey
open Verif.HeaderValidator (HeaderProof RootsProof CapellaProof DenebProof Net Kind decodedKind)

/-- An encoding of the library. `dec` is `Decodable::decode` or `Decodable2718::decode_2718` on a slice that
is not looked at afterwards: it reads a value from the front of the bytes and ignores what follows. -/
structure Wire (α : Type) where
  enc : α → Bytes
  dec : Bytes → Option α

/-- The fields of `alloy::consensus::Header` that the code reads. -/
structure View where
  number : UInt64
  timestamp : UInt64
  ommersHash : Id
  transactionsRoot : Id
  receiptsRoot : Id
  withdrawalsRoot : Option Id
deriving DecidableEq, Repr

/-- What is used of the library: headers `Hd`, transactions `Tx`, receipts `Rc`, withdrawals `Wd`. -/
structure Lib (Hd Tx Rc Wd : Type) where
  /-- RLP of a header -/
  header : Wire Hd
  /-- RLP of a list of headers -/
  ommers : Wire (List Hd)
  /-- EIP-2718 encoding of a transaction -/
  tx : Wire Tx
  /-- EIP-2718 encoding of a receipt with its bloom filter -/
  receipt : Wire Rc
  /-- RLP of a withdrawal -/
  withdrawal : Wire Wd
  view : Hd → View
  /-- `keccak256` -/
  keccak : Bytes → Id
  /-- `ordered_trie_root`: the root of the trie of the items under their positions -/
  trieRoot : List Bytes → Id

variable {Hd Tx Rc Wd : Type}

/-- What header validation reads of a header; `hash_slow` hashes the RLP. -/
def Lib.hdr (lib : Lib Hd Tx Rc Wd) (h : Hd) : HeaderValidator.Header :=
  ⟨(lib.view h).number, (lib.view h).timestamp, lib.keccak (lib.header.enc h)⟩

/-- `alloy::consensus::BlockBody`. -/
structure Body (Hd Tx Wd : Type) where
  transactions : List Tx
  ommers : List Hd
  withdrawals : Option (List Wd)

/-- `collect::<Result<Vec<_>, _>>()` of the decoded items. -/
def decodeItems {α : Type} (w : Wire α) : List Bytes → Option (List α)
  | [] => some []
  | b :: bs =>
    match w.dec b with
    | none => none
    | some x => (decodeItems w bs).map (x :: ·)

/-- `Vec<Vec<u8>>::from_ssz_bytes`: no limit on the number of items (a list has fewer items than bytes). -/
def decodeVec (bs : Bytes) : Option (List Bytes) := decodeVarList bs.length bs

/-- `ssz_header::decode::from_ssz_bytes` (ssz_header.rs:42-48): a `ByteList2048`. -/
def decodeHeader (lib : Lib Hd Tx Rc Wd) (bs : Bytes) : Option Hd :=
  if bs.length ≤ 2048 then lib.header.dec bs else none

/-- `ssz_header::encode::ssz_append` (ssz_header.rs:14-17): `ByteList2048::from` cuts off what is too
long. -/
def encodeHeader (lib : Lib Hd Tx Rc Wd) (h : Hd) : Bytes := (lib.header.enc h).take 2048

/-! ## Header proofs (header_with_proof.rs:26-178) -/

/-- `FixedVector<B256, n>` as the `Vector` of the header validation. -/
def toVector {n : Nat} (x : Vec Id n) : Vector Id n := ⟨x.1.toArray, by simp [x.2]⟩
def ofVector {n : Nat} (v : Vector Id n) : Vec Id n := ⟨v.toList, by simp⟩

def rootsCodec : Codec RootsProof :=
  container (.cons (vector hash 14) <| .cons hash <| .cons (vector hash 11) <| .cons u64 .nil)
    (fun (a, b, c, d, _) => ⟨toVector a, b, toVector c, d⟩)
    (fun p => (ofVector p.beaconBlockProof, p.beaconBlockRoot, ofVector p.executionBlockProof, p.slot, ()))

def capellaCodec : Codec CapellaProof :=
  container (.cons (vector hash 13) <| .cons hash <| .cons (vector hash 11) <| .cons u64 .nil)
    (fun (a, b, c, d, _) => ⟨toVector a, b, toVector c, d⟩)
    (fun p => (ofVector p.beaconBlockProof, p.beaconBlockRoot, ofVector p.executionBlockProof, p.slot, ()))

def denebCodec : Codec DenebProof :=
  container (.cons (vector hash 13) <| .cons hash <| .cons (vector hash 12) <| .cons u64 .nil)
    (fun (a, b, c, d, _) => ⟨toVector a, b, toVector c, d⟩)
    (fun p => (ofVector p.beaconBlockProof, p.beaconBlockRoot, ofVector p.executionBlockProof, p.slot, ()))

/-- `BlockHeaderProof::ssz_append` (header_with_proof.rs:107-114). -/
def encodeProof : HeaderProof → Bytes
  | .hashes p => (vector hash 15).enc (ofVector p)
  | .roots p => rootsCodec.enc p
  | .capella p => capellaCodec.enc p
  | .deneb p => denebCodec.enc p

/-- The proof in `HeaderWithProof::from_ssz_bytes` (header_with_proof.rs:81-97): a `ByteList1024`, decoded
according to the header. -/
def decodeProof (kind : Kind) (bs : Bytes) : Option HeaderProof :=
  if bs.length ≤ 1024 then
    match kind with
    | .deneb => (denebCodec.dec bs).map .deneb
    | .capella => (capellaCodec.dec bs).map .capella
    | .roots => (rootsCodec.dec bs).map .roots
    | .hashes => ((vector hash 15).dec bs).map fun p => .hashes (toVector p)
  else none

/-- `HeaderWithProof::from_ssz_bytes` (header_with_proof.rs:72-100). -/
def decodeHeaderWithProof (lib : Lib Hd Tx Rc Wd) (net : Net) (bs : Bytes) : Option (Hd × HeaderProof) :=
  match decodeContainer [.var, .var] bs with
  | some [h, p] =>
    match decodeHeader lib h with
    | none => none
    | some h => (decodeProof (decodedKind net (lib.hdr h)) p).map (h, ·)
  | _ => none

/-- The derived `Encode` of `HeaderWithProof` (header_with_proof.rs:48-53). -/
def encodeHeaderWithProof (lib : Lib Hd Tx Rc Wd) (h : Hd) (p : HeaderProof) : Bytes :=
  encodeContainer [.var, .var] [encodeHeader lib h, encodeProof p]

/-! ## Block bodies -/

/-- `ssz_encode_pre_shanghai` and `ssz_encode_post_shanghai` (block_body.rs:33-42, 103-116, 144-164): after
Shanghai the uncles are left out. -/
def encodeBody (lib : Lib Hd Tx Rc Wd) (b : Body Hd Tx Wd) : Bytes :=
  match b.withdrawals with
  | none =>
    encodeContainer [.var, .var] [encodeVarList (b.transactions.map lib.tx.enc), lib.ommers.enc b.ommers]
  | some ws =>
    encodeContainer [.var, .var, .var]
      [encodeVarList (b.transactions.map lib.tx.enc), lib.ommers.enc [],
        encodeVarList (ws.map lib.withdrawal.enc)]

/-- `ssz_decode_pre_shanghai` (block_body.rs:118-142). -/
def decodeBodyPre (lib : Lib Hd Tx Rc Wd) (bs : Bytes) : Option (Body Hd Tx Wd) :=
  match decodeContainer [.var, .var] bs with
  | some [t, o] =>
    match (decodeVec t).bind (decodeItems lib.tx), lib.ommers.dec o with
    | some txs, some ommers => some ⟨txs, ommers, none⟩
    | _, _ => none
  | _ => none

/-- `ssz_decode_post_shanghai` (block_body.rs:166-211). -/
def decodeBodyPost (lib : Lib Hd Tx Rc Wd) (bs : Bytes) : Option (Body Hd Tx Wd) :=
  match decodeContainer [.var, .var, .var] bs with
  | some [t, o, w] =>
    match (decodeVec t).bind (decodeItems lib.tx), lib.ommers.dec o,
      (decodeVec w).bind (decodeItems lib.withdrawal) with
    | some txs, some [], some ws => some ⟨txs, [], some ws⟩
    | _, _, _ => none
  | _ => none

/-- `BlockBody::from_ssz_bytes` (block_body.rs:54-64). -/
def decodeBody (lib : Lib Hd Tx Rc Wd) (bs : Bytes) : Option (Body Hd Tx Wd) :=
  (decodeBodyPre lib bs).or (decodeBodyPost lib bs)

/-! ## Receipts (receipts.rs:24-62) -/

def encodeReceipts (lib : Lib Hd Tx Rc Wd) (rs : List Rc) : Bytes := encodeVarList (rs.map lib.receipt.enc)

/-- At most `MAX_TRANSACTION_COUNT` receipts (receipts.rs:11). -/
def decodeReceipts (lib : Lib Hd Tx Rc Wd) (bs : Bytes) : Option (List Rc) :=
  (decodeVarList 16384 bs).bind (decodeItems lib.receipt)

/-! ## Ephemeral headers (ephermeral_header.rs) -/

/-- `EphemeralHeadersFindContent::ssz_append` (ephermeral_header.rs:18-30); `none` is the panic for a header
of more than 2048 bytes. -/
def encodeEphemeral (lib : Lib Hd Tx Rc Wd) (hs : BList Hd 256) : Option Bytes :=
  if hs.1.all fun h => (lib.header.enc h).length ≤ 2048 then some (encodeVarList (hs.1.map lib.header.enc))
  else none

/-- `decode_next` of the items and `ssz_header::decode` (ephermeral_header.rs:42-55). -/
def decodeHeaders (lib : Lib Hd Tx Rc Wd) : List Bytes → Option (List Hd)
  | [] => some []
  | b :: bs =>
    match decodeHeader lib b with
    | none => none
    | some x => (decodeHeaders lib bs).map (x :: ·)

def decodeEphemeral (lib : Lib Hd Tx Rc Wd) (bs : Bytes) : Option (BList Hd 256) :=
  ((decodeVarList 256 bs).bind (decodeHeaders lib)).bind (toBList 256)

/-! ## Values -/

/-- `LegacyHistoryContentValue` (content_value/legacy_history.rs:19-25). -/
inductive Value (Hd Tx Rc Wd : Type) where
  | header (h : Hd) (p : HeaderProof)
  | body (b : Body Hd Tx Wd)
  | receipts (rs : List Rc)
  | ephemeralHeaders (hs : BList Hd 256)
  | ephemeralOffer (h : Hd)

/-- `encode` (content_value/legacy_history.rs:30-38). -/
def Value.encode (lib : Lib Hd Tx Rc Wd) : Value Hd Tx Rc Wd → Option Bytes
  | .header h p => some (encodeHeaderWithProof lib h p)
  | .body b => some (encodeBody lib b)
  | .receipts rs => some (encodeReceipts lib rs)
  | .ephemeralHeaders hs => encodeEphemeral lib hs
  | .ephemeralOffer h => some (encodeContainer [.var] [encodeHeader lib h])

/-- The derived `Decode` of `EphemeralHeaderOffer` (ephermeral_header.rs:57-61). -/
def decodeOffer (lib : Lib Hd Tx Rc Wd) (bs : Bytes) : Option Hd :=
  match decodeContainer [.var] bs with
  | some [h] => decodeHeader lib h
  | _ => none

/-- `decode` (content_value/legacy_history.rs:40-73). -/
def Value.decode (lib : Lib Hd Tx Rc Wd) (net : Net) (key : Legacy) (bs : Bytes) :
    Option (Value Hd Tx Rc Wd) :=
  match key with
  | .headerByHash _ => (decodeHeaderWithProof lib net bs).map fun x => .header x.1 x.2
  | .headerByNumber _ => (decodeHeaderWithProof lib net bs).map fun x => .header x.1 x.2
  | .blockBody _ => (decodeBody lib bs).map .body
  | .blockReceipts _ => (decodeReceipts lib bs).map .receipts
  | .ephemeralFind _ _ => (decodeEphemeral lib bs).map .ephemeralHeaders
  | .ephemeralOffer _ => (decodeOffer lib bs).map .ephemeralOffer

end Verif.HistoryValue
