import Verif.Model.E2hsBridge
import Verif.Model.E2hsGen
import Verif.Props.HistoryValidatorSpec

/-! # Specification of the E2HS bridge -/

namespace Verif.Props.FileBridge
open Verif.E2hsBridge
open Verif.HistoryValue (Value)
open Verif.HeaderValidator (HeaderProof)
open Verif.Archive (e2hsFormat)
open Verif.ContentKey (Legacy)
open Verif.Census (OfferTrace)

variable {Hd Tx Rc Wd P : Type}

/-- The file of an epoch can be downloaded and read to the end, and these are its blocks. -/
def File (env : Env Hd Tx Rc Wd) (epoch : Nat) (ts : List (Tuple Hd Tx Rc Wd)) : Prop :=
  ∃ bytes, env.download epoch = some bytes ∧ Archive.E2hs.iterTuples (e2hsFormat env.codecs) bytes = .ok ts

/-- The `i`-th block of the file of an epoch (which may be broken further on): the entries of the file after the version
entry come in groups of three. -/
def BlockAt (env : Env Hd Tx Rc Wd) (epoch i : Nat) (t : Tuple Hd Tx Rc Wd) : Prop :=
  ∃ bytes entries, env.download epoch = some bytes ∧ E2store.deserialize bytes = .ok entries ∧
    (e2hsFormat env.codecs).read ((entries.drop (1 + 3 * i)).take 3) = .ok t

/-- What is known about a block before it is offered. The proofs of headers since Capella are not looked at, and the
withdrawals only when the body has any. -/
structure Checked (env : Env Hd Tx Rc Wd) (t : Tuple Hd Tx Rc Wd) : Prop where
  header : (∀ p, t.headerWithProof.2 ≠ .capella p) → (∀ p, t.headerWithProof.2 ≠ .deneb p) →
    ∀ cache source, (HeaderValidator.validate env.H env.net env.trusted cache source
      (env.lib.hdr t.headerWithProof.1) t.headerWithProof.2).1 = .accept
  transactions : (env.lib.view t.headerWithProof.1).transactionsRoot =
    env.lib.trieRoot (t.body.transactions.map env.lib.tx.enc)
  ommers : (env.lib.view t.headerWithProof.1).ommersHash = env.lib.keccak (env.lib.ommers.enc t.body.ommers)
  withdrawals : ∀ ws, t.body.withdrawals = some ws →
    (env.lib.view t.headerWithProof.1).withdrawalsRoot = some (env.lib.trieRoot (ws.map env.lib.withdrawal.enc))
  receipts : HistoryValidator.CommitsReceipts env.lib t.headerWithProof.1 t.receipts

/-- The four contents of a block: the header under its hash and under its number, the body, the receipts. -/
def contentsOf (env : Env Hd Tx Rc Wd) (t : Tuple Hd Tx Rc Wd) : List (Legacy × Option Bytes) :=
  let hash := env.lib.keccak (env.lib.header.enc t.headerWithProof.1)
  let header : Value Hd Tx Rc Wd := .header t.headerWithProof.1 t.headerWithProof.2
  [ (.headerByHash hash, header.encode env.lib),
    (.headerByNumber (env.lib.view t.headerWithProof.1).number, header.encode env.lib),
    (.blockBody hash, (Value.body t.body : Value Hd Tx Rc Wd).encode env.lib),
    (.blockReceipts hash, (Value.receipts t.receipts : Value Hd Tx Rc Wd).encode env.lib) ]

/-- The peers that were selected for a content (none when the census failed). -/
def selected (c : Content P) : List P := (c.asked.getD none).getD []

/-- The census was asked, every selected peer got one offer, and every offer has ended. -/
structure Served (c : Content P) : Prop where
  asked : c.asked.isSome
  peers : c.offers.map (·.peer) = selected c
  ended : ∀ o ∈ c.offers, o.result.isSome

/-- All contents of the block were served. -/
structure BlockServed (env : Env Hd Tx Rc Wd) (b : BlockTask Hd Tx Rc Wd P) : Prop where
  contents : b.contents.map (fun c => (c.key, some c.value)) = contentsOf env b.tuple
  served : ∀ c ∈ b.contents, Served c

/-- The blocks that were started for an epoch, in order. -/
def started (s : State Hd Tx Rc Wd P) (epoch : Nat) : List (Tuple Hd Tx Rc Wd) :=
  s.blocks.filterMap fun b => if b.epoch = epoch then some b.tuple else none

/-- The blocks of a list that are in the range and pass the checks. -/
noncomputable def due (env : Env Hd Tx Rc Wd) (start stop : Nat) (ts : List (Tuple Hd Tx Rc Wd)) :
    List (Tuple Hd Tx Rc Wd) := by
  classical
  exact ts.filter fun t => decide
    ((start ≤ (number env t).toNat ∧ (number env t).toNat ≤ stop) ∧ Checked env t)

/-- All offers. -/
def offers (s : State Hd Tx Rc Wd P) : List (Offer P) :=
  s.blocks.flatMap fun b => b.contents.flatMap fun c => c.offers

/-- The offers that were sent and have not ended. -/
def inFlight (s : State Hd Tx Rc Wd P) : List (Offer P) := (offers s).filter fun o => o.result.isNone

/-- The block tasks that have not ended. -/
def active (s : State Hd Tx Rc Wd P) : List (BlockTask Hd Tx Rc Wd P) := s.blocks.filter fun b => b.phase ≠ .done

/-- The peers and results of the offers that have ended. -/
def results (s : State Hd Tx Rc Wd P) : List (P × OfferTrace) :=
  (offers s).filterMap fun o => o.result.map fun r => (o.peer, r.1)

/-- What an answer says of an offer: an error and no answer in time are failures. -/
def told : Reply → OfferTrace
  | .trace t => t
  | .error | .timeout => .failed

/-- The state after some events from the start. -/
def Reachable (env : Env Hd Tx Rc Wd) (range : BlockRange) (files : List Nat) (order : List Part → List Part)
    (s : State Hd Tx Rc Wd P) : Prop :=
  ∃ es, s = run env (launch env range files order) es

/-- An event that is not time passing. -/
def IsStep : Event P → Prop
  | .tick _ => False
  | _ => True

/-- The last block number of the range is known. -/
def EndsAt (range : BlockRange) (files : List Nat) (stop : Nat) : Prop :=
  range.stop = some stop ∨
    (range.stop = none ∧ ∃ last ∈ files, (∀ e ∈ files, e ≤ last) ∧ stop = last * 8192 + 8191)

/-- The check of the header of a block does not abort (C33 tells when it does). -/
def HeaderSafe (env : Env Hd Tx Rc Wd) (t : Tuple Hd Tx Rc Wd) : Prop :=
  (∀ p, t.headerWithProof.2 ≠ .capella p) → (∀ p, t.headerWithProof.2 ≠ .deneb p) →
    ∀ cache source, (HeaderValidator.validate env.H env.net env.trusted cache source
      (env.lib.hdr t.headerWithProof.1) t.headerWithProof.2).1 ≠ .abort

/-- The file of an epoch holds only blocks of that epoch. -/
def OwnBlocks (env : Env Hd Tx Rc Wd) (epoch : Nat) (ts : List (Tuple Hd Tx Rc Wd)) : Prop :=
  ∀ t ∈ ts, (number env t).toNat / 8192 = epoch

end Verif.Props.FileBridge
