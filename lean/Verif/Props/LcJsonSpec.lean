import Verif.Model.LcJson
import Verif.Props.BridgeCliSpec

/-! # Which JSON stands for which data of the light client -/

namespace Verif.Props.LcJsonSpec
open Verif.SszT (Vec BList BytesN)
open Verif.JsonRpc (Json)
open Verif.LcJson (Lib LcStore)
open Verif.BeaconValue
open Verif.LightClient (Header)
open Verif.Props.BridgeSpec (Numeral)
open scoped Verif.Provider

/-! ## Values -/

/-- Two hex digits for each byte, the higher one first. -/
inductive HexDigits : List Char → Bytes → Prop where
  | nil : HexDigits [] []
  | cons {a b : Char} {h l : Nat} {x : UInt8} {ds : List Char} {bs : Bytes} (ha : Hex.digitVal a = some h)
      (hb : Hex.digitVal b = some l) (hx : x.toNat = 16 * h + l) (rest : HexDigits ds bs) : HexDigits (a :: b :: ds) (x :: bs)

/-- A number of 64 bits as such or as a numeral. -/
def Usual (j : Json) (n : Nat) : Prop := n < 2 ^ 64 ∧ (j = .num n ∨ ∃ t, j = .str t ∧ Numeral t n)

/-- A number of 64 bits, or what the library takes for one. -/
def IsNumber (lib : Lib) (j : Json) (n : UInt64) : Prop := Usual j n.toNat ∨ (∀ m, ¬ Usual j m) ∧ lib.num j = some n

/-- `n` bytes in hex digits, with or without `0x`, or what the library takes for them. -/
def IsBytes (lib : Lib) (n : Nat) (j : Json) (x : BytesN n) : Prop :=
  (∃ ds, HexDigits ds x.1 ∧ (j = .str ds ∨ j = .str ('0' :: 'x' :: ds))) ∨ (∀ s, j ≠ .str s) ∧ lib.fixed n j = some x

/-- 32 bytes. -/
def IsWord (lib : Lib) (j : Json) (w : Id) : Prop := IsBytes lib 32 j ⟨w.bytes, toBe_length _ _⟩

/-- Bytes in hex digits with `0x`. -/
def IsHex (j : Json) (bs : Bytes) : Prop := ∃ ds, HexDigits ds bs ∧ j = .str ('0' :: 'x' :: ds)

/-- The same with `0x` or `0X`. -/
def IsAnyHex (j : Json) (bs : Bytes) : Prop := ∃ c ds, (c = 'x' ∨ c = 'X') ∧ HexDigits ds bs ∧ j = .str ('0' :: c :: ds)

def Digits (s : List Char) : Prop := s ≠ [] ∧ ∀ c ∈ s, '0' ≤ c ∧ c ≤ '9'

/-- A number of 256 bits in decimal digits, or what the library takes for one. -/
def IsBig (lib : Lib) (j : Json) (x : BitVec 256) : Prop :=
  ∃ s, j = .str s ∧ (Digits s ∧ x.toNat = s.foldl (fun a c => 10 * a + (c.toNat - '0'.toNat)) 0 ∨ ¬ Digits s ∧ lib.big s = some x)

/-- A public key: bytes of any number, cut after 48 or filled up with zeros. -/
def IsKey (j : Json) (k : BytesN 48) : Prop := ∃ bs, IsAnyHex j bs ∧ k.1 = (bs ++ List.replicate 48 0).take 48

/-- Pairs of elements in the same places. -/
inductive Each {α β : Type} (P : α → β → Prop) : List α → List β → Prop where
  | nil : Each P [] []
  | cons {a b as bs} (h : P a b) (rest : Each P as bs) : Each P (a :: as) (b :: bs)

def IsArray {α : Type} (P : Json → α → Prop) (j : Json) (xs : List α) : Prop := ∃ js, j = .arr js ∧ Each P js xs

def IsOption {α : Type} (P : Json → α → Prop) (j : Json) : Option α → Prop
  | none => j = .null
  | some a => j ≠ .null ∧ P j a

/-! ## Structures -/

/-- A field: its name, and which values it can have, where `none` is for a field that is missing. -/
abbrev Field := List Char × (Option Json → Prop)

def needed (n : List Char) (P : Json → Prop) : Field := (n, fun o => ∃ v, o = some v ∧ P v)
def optional {α : Type} (n : List Char) (P : Json → α → Prop) (x : Option α) : Field := (n, fun o => IsOption P (o.getD .null) x)

/-- An object with each of the fields once, in any order, and, if it is closed, no others; or an array with the values of the
fields in order. -/
def IsObject (closed : Bool) (fields : List Field) (j : Json) : Prop :=
  (∃ ms, j = .obj ms ∧
    (∀ f ∈ fields, ms.filter (fun m => m.1 == f.1) = [] ∧ f.2 none ∨
      ∃ v, ms.filter (fun m => m.1 == f.1) = [(f.1, v)] ∧ f.2 (some v)) ∧
    (closed = true → ∀ m ∈ ms, ∃ f ∈ fields, f.1 = m.1)) ∨
  ∃ vs, j = .arr vs ∧ Each (fun v f => f.2 (some v)) vs fields

def HeaderJson (lib : Lib) (j : Json) (h : Header) : Prop :=
  IsObject false
    [needed (chars% "slot") (IsNumber lib · h.slot), needed (chars% "proposer_index") (IsNumber lib · h.proposerIndex),
      needed (chars% "parent_root") (IsWord lib · h.parentRoot), needed (chars% "state_root") (IsWord lib · h.stateRoot),
      needed (chars% "body_root") (IsWord lib · h.bodyRoot)] j

def ExecCapellaJson (lib : Lib) (j : Json) (x : ExecCapella) : Prop :=
  IsObject false
    [needed (chars% "parent_hash") (IsWord lib · x.parentHash), needed (chars% "fee_recipient") (IsBytes lib 20 · x.feeRecipient),
      needed (chars% "state_root") (IsWord lib · x.stateRoot), needed (chars% "receipts_root") (IsWord lib · x.receiptsRoot),
      needed (chars% "logs_bloom") (IsHex · x.logsBloom.1), needed (chars% "prev_randao") (IsWord lib · x.prevRandao),
      needed (chars% "block_number") (IsNumber lib · x.blockNumber), needed (chars% "gas_limit") (IsNumber lib · x.gasLimit),
      needed (chars% "gas_used") (IsNumber lib · x.gasUsed), needed (chars% "timestamp") (IsNumber lib · x.timestamp),
      needed (chars% "extra_data") (IsHex · x.extraData.1), needed (chars% "base_fee_per_gas") (IsBig lib · x.baseFeePerGas),
      needed (chars% "block_hash") (IsWord lib · x.blockHash), needed (chars% "transactions_root") (IsWord lib · x.transactionsRoot),
      needed (chars% "withdrawals_root") (IsWord lib · x.withdrawalsRoot)] j

def ExecDenebJson (lib : Lib) (j : Json) (x : ExecDeneb) : Prop :=
  IsObject false
    [needed (chars% "parent_hash") (IsWord lib · x.parentHash), needed (chars% "fee_recipient") (IsBytes lib 20 · x.feeRecipient),
      needed (chars% "state_root") (IsWord lib · x.stateRoot), needed (chars% "receipts_root") (IsWord lib · x.receiptsRoot),
      needed (chars% "logs_bloom") (IsHex · x.logsBloom.1), needed (chars% "prev_randao") (IsWord lib · x.prevRandao),
      needed (chars% "block_number") (IsNumber lib · x.blockNumber), needed (chars% "gas_limit") (IsNumber lib · x.gasLimit),
      needed (chars% "gas_used") (IsNumber lib · x.gasUsed), needed (chars% "timestamp") (IsNumber lib · x.timestamp),
      needed (chars% "extra_data") (IsHex · x.extraData.1), needed (chars% "base_fee_per_gas") (IsBig lib · x.baseFeePerGas),
      needed (chars% "block_hash") (IsWord lib · x.blockHash), needed (chars% "transactions_root") (IsWord lib · x.transactionsRoot),
      needed (chars% "withdrawals_root") (IsWord lib · x.withdrawalsRoot),
      needed (chars% "blob_gas_used") (IsNumber lib · x.blobGasUsed),
      needed (chars% "excess_blob_gas") (IsNumber lib · x.excessBlobGas)] j

def LcHeaderJson (lib : Lib) : (f : Fork) → Json → LcHeader f → Prop
  | .bellatrix, j, x => IsObject true [needed (chars% "beacon") (HeaderJson lib · x.beacon)] j
  | .capella, j, x =>
    IsObject true [needed (chars% "beacon") (HeaderJson lib · x.beacon),
      needed (chars% "execution") (ExecCapellaJson lib · x.exec.1),
      needed (chars% "execution_branch") (IsArray (IsWord lib) · x.exec.2.1)] j
  | .deneb, j, x =>
    IsObject true [needed (chars% "beacon") (HeaderJson lib · x.beacon),
      needed (chars% "execution") (ExecDenebJson lib · x.exec.1),
      needed (chars% "execution_branch") (IsArray (IsWord lib) · x.exec.2.1)] j
  | .electra, j, x =>
    IsObject true [needed (chars% "beacon") (HeaderJson lib · x.beacon),
      needed (chars% "execution") (ExecDenebJson lib · x.exec.1),
      needed (chars% "execution_branch") (IsArray (IsWord lib) · x.exec.2.1)] j

def CommitteeJson (j : Json) (x : SyncCommittee) : Prop :=
  IsObject false [needed (chars% "pubkeys") (IsArray IsKey · x.pubkeys.1),
    needed (chars% "aggregate_pubkey") (IsKey · x.aggregatePubkey)] j

def AggregateJson (j : Json) (x : SyncAggregate) : Prop :=
  IsObject false [needed (chars% "sync_committee_bits") (IsHex · x.bits.1),
    needed (chars% "sync_committee_signature") (IsAnyHex · x.signature.1)] j

def BootstrapJson (lib : Lib) (f : Fork) (j : Json) (x : Bootstrap f) : Prop :=
  IsObject true [needed (chars% "header") (LcHeaderJson lib f · x.header),
    needed (chars% "current_sync_committee") (CommitteeJson · x.currentSyncCommittee),
    needed (chars% "current_sync_committee_branch") (IsArray (IsWord lib) · x.branch.1)] j

def UpdateJson (lib : Lib) (f : Fork) (j : Json) (x : Update f) : Prop :=
  IsObject true [needed (chars% "attested_header") (LcHeaderJson lib f · x.attested),
    needed (chars% "next_sync_committee") (CommitteeJson · x.nextSyncCommittee),
    needed (chars% "next_sync_committee_branch") (IsArray (IsWord lib) · x.nextBranch.1),
    needed (chars% "finalized_header") (LcHeaderJson lib f · x.finalized),
    needed (chars% "finality_branch") (IsArray (IsWord lib) · x.finalityBranch.1),
    needed (chars% "sync_aggregate") (AggregateJson · x.aggregate),
    needed (chars% "signature_slot") (IsNumber lib · x.signatureSlot)] j

def FinalityJson (lib : Lib) (f : Fork) (j : Json) (x : FinalityUpdate f) : Prop :=
  IsObject true [needed (chars% "attested_header") (LcHeaderJson lib f · x.attested),
    needed (chars% "finalized_header") (LcHeaderJson lib f · x.finalized),
    needed (chars% "finality_branch") (IsArray (IsWord lib) · x.finalityBranch.1),
    needed (chars% "sync_aggregate") (AggregateJson · x.aggregate),
    needed (chars% "signature_slot") (IsNumber lib · x.signatureSlot)] j

def OptimisticJson (lib : Lib) (f : Fork) (j : Json) (x : OptimisticUpdate f) : Prop :=
  IsObject true [needed (chars% "attested_header") (LcHeaderJson lib f · x.attested),
    needed (chars% "sync_aggregate") (AggregateJson · x.aggregate),
    needed (chars% "signature_slot") (IsNumber lib · x.signatureSlot)] j

def IsPlain (j : Json) (n : UInt64) : Prop := j = .num n.toNat

def StoreJson (lib : Lib) (j : Json) (x : LcStore) : Prop :=
  IsObject false [needed (chars% "finalized_header") (HeaderJson lib · x.finalizedHeader),
    needed (chars% "current_sync_committee") (CommitteeJson · x.currentSyncCommittee),
    optional (chars% "next_sync_committee") CommitteeJson x.nextSyncCommittee,
    needed (chars% "optimistic_header") (HeaderJson lib · x.optimisticHeader),
    needed (chars% "previous_max_active_participants") (IsPlain · x.previousMaxActiveParticipants),
    needed (chars% "current_max_active_participants") (IsPlain · x.currentMaxActiveParticipants)] j

/-- The names of the forks. -/
def forkName : Fork → List Char
  | .bellatrix => chars% "Bellatrix"
  | .capella => chars% "Capella"
  | .deneb => chars% "Deneb"
  | .electra => chars% "Electra"

/-- An object with the fork as its only field. -/
def TaggedJson {T : Fork → Type} (P : (f : Fork) → Json → T f → Prop) (j : Json) (x : (f : Fork) × T f) : Prop :=
  ∃ v, j = .obj [(forkName x.1, v)] ∧ P x.1 v x.2

/-- The answer of a provider with the data `x`. -/
def AnswerJson {α : Type} (P : Json → α → Prop) (j : Json) (x : α) : Prop :=
  ∃ (version : Option (List Char)) (exOptimistic finalized : Option Bool),
    IsObject false [optional (chars% "version") (fun v s => v = .str s) version,
      optional (chars% "execution_optimistic") (fun v b => v = .bool b) exOptimistic,
      optional (chars% "finalized") (fun v b => v = .bool b) finalized,
      needed (chars% "data") (P · x)] j

/-! ## Parts -/

inductive Inside (s : Json) : Json → Prop where
  | here : Inside s s
  | arr {v : Json} {vs : List Json} (hv : v ∈ vs) (h : Inside s v) : Inside s (.arr vs)
  | obj {n : List Char} {v : Json} {ms : List (List Char × Json)} (hv : (n, v) ∈ ms) (h : Inside s v) : Inside s (.obj ms)

/-- The signature of a sync aggregate: the field of this name, or the second of two values. -/
def SignatureOf (s v : Json) : Prop :=
  (∃ ms, s = .obj ms ∧ (chars% "sync_committee_signature", v) ∈ ms) ∨ ∃ u, s = .arr [u, v]

/-- Somewhere in the document there is a signature of other than 96 bytes. -/
def OtherThan96 (j : Json) : Prop := ∃ s v bs, Inside s j ∧ SignatureOf s v ∧ IsAnyHex v bs ∧ bs.length ≠ 96

end Verif.Props.LcJsonSpec
