import Verif.Model.HistoryValue

/-! # Validation of legacy history content (crates/subnetworks/legacy-history/src/validation.rs,
crates/validation/src/oracle.rs, crates/ethportal-api/src/types/execution/{block_body,receipts}.rs) -/

namespace Verif.HistoryValidator
open Verif.Ssz Verif.ContentKey Verif.HistoryValue
open Verif.HeaderValidator (HeaderProof Net Summary Trusted Verdict)

variable {Hd Tx Rc Wd : Type}

/-- `BlockBody::validate_against_header` (block_body.rs:69-99). -/
def validateBody (lib : Lib Hd Tx Rc Wd) (b : Body Hd Tx Wd) (h : Hd) : Bool :=
  if lib.keccak (lib.ommers.enc b.ommers) ≠ (lib.view h).ommersHash then false
  else if lib.trieRoot (b.transactions.map lib.tx.enc) ≠ (lib.view h).transactionsRoot then false
  else
    match b.withdrawals with
    | none => true
    | some ws =>
      match (lib.view h).withdrawalsRoot with
      | none => false
      | some root => lib.trieRoot (ws.map lib.withdrawal.enc) = root

/-- `Receipts::root() == header.receipts_root` (receipts.rs:18-20, validation.rs:149-156). -/
def validateReceipts (lib : Lib Hd Tx Rc Wd) (rs : List Rc) (h : Hd) : Bool :=
  lib.trieRoot (rs.map lib.receipt.enc) = (lib.view h).receiptsRoot

/-- Everything a validation depends on besides the content: the hash of the Merkle proofs, the network, the
trusted accumulators, the source of historical summaries, and what the history network answers when asked
for the header with a given hash (`none`: an error). -/
structure Env (Hd Tx Rc Wd : Type) where
  lib : Lib Hd Tx Rc Wd
  H : Id → Id → Id
  net : Net
  trusted : Trusted
  source : Nat → Option (List Summary)
  headerContent : Id → Option Bytes

/-- `recursive_find_header_by_hash_with_proof` (oracle.rs:67-86): neither the hash nor the proof of what was
answered is looked at. -/
def Env.findHeader (env : Env Hd Tx Rc Wd) (hash : Id) : Option Hd :=
  match env.headerContent hash with
  | none => none
  | some bs =>
    match Value.decode env.lib env.net (.headerByHash hash) bs with
    | some (.header h _) => some h
    | _ => none

def verdict : Bool → Verdict
  | true => .accept
  | false => .reject

/-- `LegacyHistoryValidator::validate_content` (validation.rs:35-171), with the new summaries cache. -/
def validateContent (env : Env Hd Tx Rc Wd) (cache : List Summary) (key : Legacy) (bs : Bytes) :
    Verdict × List Summary :=
  match key with
  | .headerByHash blockHash =>
    match decodeHeaderWithProof env.lib env.net bs with
    | none => (.reject, cache)
    | some (h, p) =>
      if env.lib.keccak (env.lib.header.enc h) ≠ blockHash then (.reject, cache)
      else HeaderValidator.validate env.H env.net env.trusted cache env.source (env.lib.hdr h) p
  | .headerByNumber n =>
    match decodeHeaderWithProof env.lib env.net bs with
    | none => (.reject, cache)
    | some (h, p) =>
      if (env.lib.view h).number ≠ n then (.reject, cache)
      else HeaderValidator.validate env.H env.net env.trusted cache env.source (env.lib.hdr h) p
  | .blockBody blockHash =>
    match decodeBody env.lib bs with
    | none => (.reject, cache)
    | some b =>
      match env.findHeader blockHash with
      | none => (.reject, cache)
      | some h => (verdict (validateBody env.lib b h), cache)
  | .blockReceipts blockHash =>
    match decodeReceipts env.lib bs with
    | none => (.reject, cache)
    | some rs =>
      match env.findHeader blockHash with
      | none => (.reject, cache)
      | some h => (verdict (validateReceipts env.lib rs h), cache)
  | .ephemeralOffer _ => (.reject, cache)
  | .ephemeralFind _ _ => (.reject, cache)

/-- Validations one after the other, each with what the networks answer at that time, on the cache of the
validator, which is empty at the start (historical_summaries_provider.rs:24-31). -/
def run (lib : Lib Hd Tx Rc Wd) (H : Id → Id → Id) (net : Net) (t : Trusted) :
    List ((Nat → Option (List Summary)) × (Id → Option Bytes) × Legacy × Bytes) → List Summary
  | [] => []
  | (source, headers, key, bs) :: past =>
    (validateContent ⟨lib, H, net, t, source, headers⟩ (run lib H net t past) key bs).2

end Verif.HistoryValidator
