import Verif.Model.JsonRpc
import Verif.Model.HeadGen
import Verif.Model.NodeConfig
import Verif.Model.Provider
import Verif.Model.BeaconValue
import Verif.Lemmas.Bytes

/-! # The JSON of the light client's data (crates/ethportal-api/src/types/consensus)

What `#[derive(Serialize, Deserialize)]` makes of the headers, bootstraps, updates and the store of the light client, with the
serializers of single fields, and how the answers of a consensus provider are read (crates/ethereum-rpc-client/src/consensus).
The libraries serde, serde_json, `serde_this_or_that`, alloy and `ssz_types` are not in /repo; the model follows their documented
behaviour. Where they accept more forms than the ones written here, that is left open in `Lib`. Where a document has several
faults, the first one in the order of the fields decides here; serde takes the first one in the order of the document. -/

namespace Verif.LcJson
open Verif.E2store (Res)
open Verif.SszT (Vec BList BytesN)
open Verif.JsonRpc (Json)
open Verif.BeaconValue
open Verif.LightClient (Header)
open scoped Verif.Provider

/-- What the libraries accept beyond the usual forms. -/
structure Lib where
  /-- `as_u64` of `serde_this_or_that`: floats, booleans, `null`, and strings that are no numeral of 64 bits -/
  num : Json → Option UInt64
  /-- `FixedBytes` of alloy: anything but strings -/
  fixed : (n : Nat) → Json → Option (BytesN n)
  /-- `U256::from_str_radix`: strings with other characters than digits -/
  big : List Char → Option (BitVec 256)

def ofOption {α} : Option α → Res α
  | some a => .ok a
  | none => .err

/-- `Serialize` and `Deserialize` of a type. -/
structure JTy (α : Type) where
  ser : α → Json
  de : Json → Res α

/-- `u64` with `deserialize_with = "as_u64"`, written as a number. -/
def u64 (lib : Lib) : JTy UInt64 where
  ser n := .num n.toNat
  de j := match j with
    | .num n => if n < 2 ^ 64 then .ok (UInt64.ofNat n) else ofOption (lib.num j)
    | .str s =>
      match HeadGen.parseU64 s with
      | some n => .ok (UInt64.ofNat n)
      | none => ofOption (lib.num j)
    | _ => ofOption (lib.num j)

/-- `u64` without it. -/
def plainU64 : JTy UInt64 where
  ser n := .num n.toNat
  de j := match j with
    | .num n => if n < 2 ^ 64 then .ok (UInt64.ofNat n) else .err
    | _ => .err

/-- Bytes of a fixed number. -/
def sized (n : Nat) (bs : Bytes) : Res (BytesN n) := if h : bs.length = n then .ok ⟨bs, h⟩ else .err

def ofExcept {ε α} : Except ε α → Res α
  | .ok a => .ok a
  | .error _ => .err

/-- `FixedBytes<n>` of alloy (`Address`): hex digits with or without `0x`. -/
def fixed (lib : Lib) (n : Nat) : JTy (BytesN n) where
  ser x := .str (Hex.hexEncode x.1)
  de j := match j with
    | .str s => (ofExcept (Hex.hexBodyDecode (NodeConfig.stripPrefix s))).bind (sized n)
    | _ => ofOption (lib.fixed n j)

/-- A type under another name. -/
def mapped {α β} (t : JTy α) (f : α → β) (g : β → α) : JTy β where
  ser x := t.ser (g x)
  de j := (t.de j).map f

/-- 32 bytes as a word, highest byte first. -/
def wordOf (x : BytesN 32) : Id := BitVec.ofNat 256 (fromBe x.1)
def wordBytes (w : Id) : BytesN 32 := ⟨w.bytes, toBe_length _ _⟩

/-- `B256`. -/
def word (lib : Lib) : JTy Id := mapped (fixed lib 32) wordOf wordBytes

/-- `PrefixedHexVisitor` of `serde_utils`: `0x` and hex digits. -/
def prefixedHex : Json → Res Bytes
  | .str ('0' :: 'x' :: ds) => ofExcept (Hex.hexBodyDecode ds)
  | _ => .err

/-- `hex_fixed_vec` (utils/serde/hex_fixed_vec.rs:7-23), and `BitVector` of 8 n bits, which `ssz_types` writes and reads like
this. -/
def hexFixedVec (n : Nat) : JTy (BytesN n) where
  ser x := .str (Hex.hexEncode x.1)
  de j := (prefixedHex j).bind (sized n)

/-- `hex_var_list` (utils/serde/hex_var_list.rs:7-23). -/
def hexVarList (max : Nat) : JTy (BList UInt8 max) where
  ser x := .str (Hex.hexEncode x.1)
  de j := (prefixedHex j).bind fun bs => if h : bs.length ≤ max then .ok ⟨bs, h⟩ else .err

/-- `se_hex_to_number` and `de_number_to_u256` (serde.rs:20-38). -/
def bigDecimal (lib : Lib) : JTy (BitVec 256) where
  ser x := .str (HeadGen.decimal x.toNat)
  de j := match j with
    | .str s =>
      match if s = [] then none else HeadGen.parseDigits s 0 with
      | some n => if n < 2 ^ 256 then .ok (BitVec.ofNat 256 n) else .err
      | none => ofOption (lib.big s)
    | _ => .err

/-- `FixedVector::from` a vector: cut or filled with zeros. -/
def resize (n : Nat) (bs : Bytes) : BytesN n :=
  ⟨bs.take n ++ List.replicate (n - bs.length) 0, by simp; omega⟩

/-- `PubKey` (pubkey.rs:62-83). -/
def pubkey : JTy (BytesN 48) where
  ser x := .str (Hex.hexEncode x.1)
  de j := match j with
    | .str s => (ofExcept (Hex.hexDecode s)).map (resize 48)
    | _ => .err

/-- `BlsSignature` (signature.rs:53-73): `copy_from_slice` panics if the lengths differ. -/
def signature : JTy (BytesN 96) where
  ser x := .str (Hex.hexEncode x.1)
  de j := match j with
    | .str s => (ofExcept (Hex.hexDecode s)).bind fun bs => if h : bs.length = 96 then .ok ⟨bs, h⟩ else .panic
    | _ => .err

/-- The elements of an array, one after the other. -/
def readAll {α} (t : JTy α) : List Json → Res (List α)
  | [] => .ok []
  | j :: js => (t.de j).bind fun x => (readAll t js).map (x :: ·)

/-- `FixedVector<T, n>` of `ssz_types`, which refuses other lengths. -/
def vector {α} (t : JTy α) (n : Nat) : JTy (Vec α n) where
  ser x := .arr (x.1.map t.ser)
  de j := match j with
    | .arr js => (readAll t js).bind fun xs => if h : xs.length = n then .ok ⟨xs, h⟩ else .err
    | _ => .err

/-- `Option<T>` that has to be there. -/
def option {α} (t : JTy α) : JTy (Option α) where
  ser x := match x with
    | none => .null
    | some a => t.ser a
  de j := match j with
    | .null => .ok none
    | _ => (t.de j).map some

/-- The fields of a structure. -/
structure Members (α : Type) where
  names : List (List Char)
  ser : α → List Json
  de : (List Char → Option Json) → Res α

def Members.nil : Members Unit := ⟨[], fun _ => [], fun _ => .ok ()⟩

/-- A field that has to be there, and more. -/
def Members.cons {α β} (name : List Char) (t : JTy α) (r : Members β) : Members (α × β) where
  names := name :: r.names
  ser x := t.ser x.1 :: r.ser x.2
  de look :=
    match look name with
    | none => .err
    | some j => (t.de j).bind fun a => (r.de look).map fun b => (a, b)

/-- Whether each of the names occurs once at most. -/
def once (names : List (List Char)) (ms : List (List Char × Json)) : Bool :=
  names.all fun n => (ms.filter fun m => m.1 == n).length ≤ 1

/-- The derived serializers of a structure; `closed` stands for `deny_unknown_fields`. An array is read as the values of the
fields in their order. -/
def struct {α β} (closed : Bool) (r : Members α) (f : α → β) (g : β → α) : JTy β where
  ser x := .obj (r.names.zip (r.ser (g x)))
  de j := match j with
    | .obj ms =>
      if !once r.names ms then .err
      else if closed && ms.any (fun m => !r.names.contains m.1) then .err
      else (r.de fun n => ms.lookup n).map f
    | .arr vs => if vs.length = r.names.length then (r.de fun n => (r.names.zip vs).lookup n).map f else .err
    | _ => .err

/-- `BeaconBlockHeader` (header.rs:8-20). -/
def header (lib : Lib) : JTy Header :=
  struct false
    (.cons (chars% "slot") (u64 lib) <| .cons (chars% "proposer_index") (u64 lib) <|
      .cons (chars% "parent_root") (word lib) <| .cons (chars% "state_root") (word lib) <|
      .cons (chars% "body_root") (word lib) .nil)
    (fun (a, b, c, d, e, _) => ⟨a, b, c, d, e⟩)
    (fun h => (h.slot, h.proposerIndex, h.parentRoot, h.stateRoot, h.bodyRoot, ()))

/-- `ExecutionPayloadHeaderCapella` (execution_payload.rs:215-272). -/
def execCapella (lib : Lib) : JTy ExecCapella :=
  struct false
    (.cons (chars% "parent_hash") (word lib) <| .cons (chars% "fee_recipient") (fixed lib 20) <|
      .cons (chars% "state_root") (word lib) <| .cons (chars% "receipts_root") (word lib) <|
      .cons (chars% "logs_bloom") (hexFixedVec 256) <| .cons (chars% "prev_randao") (word lib) <|
      .cons (chars% "block_number") (u64 lib) <| .cons (chars% "gas_limit") (u64 lib) <| .cons (chars% "gas_used") (u64 lib) <|
      .cons (chars% "timestamp") (u64 lib) <| .cons (chars% "extra_data") (hexVarList 32) <|
      .cons (chars% "base_fee_per_gas") (bigDecimal lib) <| .cons (chars% "block_hash") (word lib) <|
      .cons (chars% "transactions_root") (word lib) <| .cons (chars% "withdrawals_root") (word lib) .nil)
    (fun (a, b, c, d, e, f, g, h, i, j, k, l, m, n, o, _) => ⟨a, b, c, d, e, f, g, h, i, j, k, l, m, n, o⟩)
    (fun x => (x.parentHash, x.feeRecipient, x.stateRoot, x.receiptsRoot, x.logsBloom, x.prevRandao, x.blockNumber, x.gasLimit,
      x.gasUsed, x.timestamp, x.extraData, x.baseFeePerGas, x.blockHash, x.transactionsRoot, x.withdrawalsRoot, ()))

/-- `ExecutionPayloadHeaderDeneb` and `ExecutionPayloadHeaderElectra` (execution_payload.rs:215-277). -/
def execDeneb (lib : Lib) : JTy ExecDeneb :=
  struct false
    (.cons (chars% "parent_hash") (word lib) <| .cons (chars% "fee_recipient") (fixed lib 20) <|
      .cons (chars% "state_root") (word lib) <| .cons (chars% "receipts_root") (word lib) <|
      .cons (chars% "logs_bloom") (hexFixedVec 256) <| .cons (chars% "prev_randao") (word lib) <|
      .cons (chars% "block_number") (u64 lib) <| .cons (chars% "gas_limit") (u64 lib) <| .cons (chars% "gas_used") (u64 lib) <|
      .cons (chars% "timestamp") (u64 lib) <| .cons (chars% "extra_data") (hexVarList 32) <|
      .cons (chars% "base_fee_per_gas") (bigDecimal lib) <| .cons (chars% "block_hash") (word lib) <|
      .cons (chars% "transactions_root") (word lib) <| .cons (chars% "withdrawals_root") (word lib) <|
      .cons (chars% "blob_gas_used") (u64 lib) <| .cons (chars% "excess_blob_gas") (u64 lib) .nil)
    (fun (a, b, c, d, e, f, g, h, i, j, k, l, m, n, o, p, q, _) => ⟨a, b, c, d, e, f, g, h, i, j, k, l, m, n, o, p, q⟩)
    (fun x => (x.parentHash, x.feeRecipient, x.stateRoot, x.receiptsRoot, x.logsBloom, x.prevRandao, x.blockNumber, x.gasLimit,
      x.gasUsed, x.timestamp, x.extraData, x.baseFeePerGas, x.blockHash, x.transactionsRoot, x.withdrawalsRoot, x.blobGasUsed,
      x.excessBlobGas, ()))

/-- `LightClientHeader*` (light_client/header.rs:18-48). -/
def lcHeader (lib : Lib) : (f : Fork) → JTy (LcHeader f)
  | .bellatrix => struct true (.cons (chars% "beacon") (header lib) .nil) (fun (b, _) => ⟨b, ()⟩) (fun x => (x.beacon, ()))
  | .capella =>
    struct true (.cons (chars% "beacon") (header lib) <| .cons (chars% "execution") (execCapella lib) <|
        .cons (chars% "execution_branch") (vector (word lib) 4) .nil)
      (fun (b, e, v, _) => ⟨b, (e, v)⟩) (fun x => (x.beacon, x.exec.1, x.exec.2, ()))
  | .deneb =>
    struct true (.cons (chars% "beacon") (header lib) <| .cons (chars% "execution") (execDeneb lib) <|
        .cons (chars% "execution_branch") (vector (word lib) 4) .nil)
      (fun (b, e, v, _) => ⟨b, (e, v)⟩) (fun x => (x.beacon, x.exec.1, x.exec.2, ()))
  | .electra =>
    struct true (.cons (chars% "beacon") (header lib) <| .cons (chars% "execution") (execDeneb lib) <|
        .cons (chars% "execution_branch") (vector (word lib) 4) .nil)
      (fun (b, e, v, _) => ⟨b, (e, v)⟩) (fun x => (x.beacon, x.exec.1, x.exec.2, ()))

/-- `SyncCommittee` (sync_committee.rs:11-15). -/
def syncCommittee : JTy SyncCommittee :=
  struct false (.cons (chars% "pubkeys") (vector pubkey 512) <| .cons (chars% "aggregate_pubkey") pubkey .nil)
    (fun (a, b, _) => ⟨a, b⟩) (fun x => (x.pubkeys, x.aggregatePubkey, ()))

/-- `SyncAggregate` (body.rs:193-197). -/
def syncAggregate : JTy SyncAggregate :=
  struct false (.cons (chars% "sync_committee_bits") (hexFixedVec 64) <| .cons (chars% "sync_committee_signature") signature .nil)
    (fun (a, b, _) => ⟨a, b⟩) (fun x => (x.bits, x.signature, ()))

/-- `LightClientBootstrap*` (light_client/bootstrap.rs:27-68). -/
def bootstrap (lib : Lib) (f : Fork) : JTy (Bootstrap f) :=
  struct true (.cons (chars% "header") (lcHeader lib f) <| .cons (chars% "current_sync_committee") syncCommittee <|
      .cons (chars% "current_sync_committee_branch") (vector (word lib) (committeeBranchLen f)) .nil)
    (fun (a, b, c, _) => ⟨a, b, c⟩) (fun x => (x.header, x.currentSyncCommittee, x.branch, ()))

/-- `LightClientUpdate*` (light_client/update.rs:36-99). -/
def update (lib : Lib) (f : Fork) : JTy (Update f) :=
  struct true (.cons (chars% "attested_header") (lcHeader lib f) <| .cons (chars% "next_sync_committee") syncCommittee <|
      .cons (chars% "next_sync_committee_branch") (vector (word lib) (committeeBranchLen f)) <|
      .cons (chars% "finalized_header") (lcHeader lib f) <|
      .cons (chars% "finality_branch") (vector (word lib) (finalityBranchLen f)) <|
      .cons (chars% "sync_aggregate") syncAggregate <| .cons (chars% "signature_slot") (u64 lib) .nil)
    (fun (a, b, c, d, e, g, h, _) => ⟨a, b, c, d, e, g, h⟩)
    (fun x => (x.attested, x.nextSyncCommittee, x.nextBranch, x.finalized, x.finalityBranch, x.aggregate, x.signatureSlot, ()))

/-- `LightClientFinalityUpdate*` (light_client/finality_update.rs:27-77). -/
def finality (lib : Lib) (f : Fork) : JTy (FinalityUpdate f) :=
  struct true (.cons (chars% "attested_header") (lcHeader lib f) <| .cons (chars% "finalized_header") (lcHeader lib f) <|
      .cons (chars% "finality_branch") (vector (word lib) (finalityBranchLen f)) <|
      .cons (chars% "sync_aggregate") syncAggregate <| .cons (chars% "signature_slot") (u64 lib) .nil)
    (fun (a, b, c, d, e, _) => ⟨a, b, c, d, e⟩)
    (fun x => (x.attested, x.finalized, x.finalityBranch, x.aggregate, x.signatureSlot, ()))

/-- `LightClientOptimisticUpdate*` (light_client/optimistic_update.rs:20-53). -/
def optimistic (lib : Lib) (f : Fork) : JTy (OptimisticUpdate f) :=
  struct true (.cons (chars% "attested_header") (lcHeader lib f) <| .cons (chars% "sync_aggregate") syncAggregate <|
      .cons (chars% "signature_slot") (u64 lib) .nil)
    (fun (a, b, c, _) => ⟨a, b, c⟩) (fun x => (x.attested, x.aggregate, x.signatureSlot, ()))

/-- `LightClientStore` (light_client/store.rs:6-14). -/
structure LcStore where
  finalizedHeader : Header
  currentSyncCommittee : SyncCommittee
  nextSyncCommittee : Option SyncCommittee
  optimisticHeader : Header
  previousMaxActiveParticipants : UInt64
  currentMaxActiveParticipants : UInt64

/-- An `Option<T>` field of a structure, which may be missing. -/
def Members.opt {α β} (name : List Char) (t : JTy α) (r : Members β) : Members (Option α × β) where
  names := name :: r.names
  ser x := (option t).ser x.1 :: r.ser x.2
  de look := ((option t).de ((look name).getD .null)).bind fun a => (r.de look).map fun b => (a, b)

def store (lib : Lib) : JTy LcStore :=
  struct false (.cons (chars% "finalized_header") (header lib) <| .cons (chars% "current_sync_committee") syncCommittee <|
      .opt (chars% "next_sync_committee") syncCommittee <| .cons (chars% "optimistic_header") (header lib) <|
      .cons (chars% "previous_max_active_participants") plainU64 <|
      .cons (chars% "current_max_active_participants") plainU64 .nil)
    (fun (a, b, c, d, e, g, _) => ⟨a, b, c, d, e, g⟩)
    (fun x => (x.finalizedHeader, x.currentSyncCommittee, x.nextSyncCommittee, x.optimisticHeader,
      x.previousMaxActiveParticipants, x.currentMaxActiveParticipants, ()))

/-- The name of a variant of the enums that superstruct makes. -/
def variant : Fork → List Char
  | .bellatrix => chars% "Bellatrix"
  | .capella => chars% "Capella"
  | .deneb => chars% "Deneb"
  | .electra => chars% "Electra"

def variantOf (n : List Char) : Option Fork :=
  if n = variant .bellatrix then some .bellatrix
  else if n = variant .capella then some .capella
  else if n = variant .deneb then some .deneb
  else if n = variant .electra then some .electra
  else none

/-- `LightClientFinalityUpdate` and `LightClientOptimisticUpdate`, which the JSON-RPC methods return
(light_client/finality_update.rs:43-45, light_client/optimistic_update.rs:36-38): an object with the variant as its only field. -/
def tagged {T : Fork → Type} (t : (f : Fork) → JTy (T f)) : JTy ((f : Fork) × T f) where
  ser x := .obj [(variant x.1, (t x.1).ser x.2)]
  de j := match j with
    | .obj [(n, v)] =>
      match variantOf n with
      | some f => ((t f).de v).map fun x => ⟨f, x⟩
      | none => .err
    | _ => .err

/-! ## Answers of consensus providers -/

/-- `VersionedDataResult::response` of an answer with one item (crates/ethereum-rpc-client/src/consensus/rpc_types.rs:8-51): the
`data` of it. Whatever is not of the expected form is an error. -/
def responseMembers {α} (t : JTy α) : Members (Option (List Char) × Option Bool × Option Bool × α × Unit) :=
  .opt (chars% "version") ⟨.str, fun j => ofOption j.asStr⟩ <|
    .opt (chars% "execution_optimistic") ⟨.bool, fun j => ofOption j.asBool⟩ <|
    .opt (chars% "finalized") ⟨.bool, fun j => ofOption j.asBool⟩ <| .cons (chars% "data") t .nil

def response {α} (t : JTy α) (j : Json) : Res α :=
  ((struct false (responseMembers t) id id).de j).map fun x => x.2.2.2.1

/-- `request_list_no_fallback` with the body of an answer (consensus/mod.rs:416-440): the `data` of each item. -/
def responses {α} (t : JTy α) : Json → Res (List α)
  | .arr js => readAll ⟨fun _ => .null, response t⟩ js
  | _ => .err

end Verif.LcJson
