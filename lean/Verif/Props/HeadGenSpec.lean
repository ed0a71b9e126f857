import Verif.Model.HeadGen
import Verif.Props.E2hsGenSpec

/-! # What the bucket of the head generator should hold, and what honest nodes answer -/

namespace Verif.HeadSpec
open Verif Verif.HeadGen Verif.E2hsSpec
open Verif.E2hsGen (Inputs Signed Full Batch)
open Verif.HeaderValidator (Summary HeaderProof containerRoot)
open Verif.Archive (E2hs e2hsFormat versionEntry)

variable {Tx Rc Wd : Type}

/-- The value of decimal digits. -/
def value (ds : List Char) : Nat := ds.foldl (fun a c => a * 10 + (c.toNat - 48)) 0

/-- A key has the form `mainnet-NNNNN-hhhhhhhh.e2hs`: the index with at least five digits, then the first bytes of a hash in
hexadecimal digits. -/
structure NamedFor (key : List Char) (index : Nat) (hash : List Char) (digits : List Char) : Prop where
  key : key = "mainnet-".toList ++ digits ++ "-".toList ++ hash ++ ".e2hs".toList
  digit : ∀ c ∈ digits, '0' ≤ c ∧ c ≤ '9'
  value : value digits = index
  long : 5 ≤ digits.length
  short : 5 < digits.length → digits.head? ≠ some '0'
  hex : hash.length = 8 ∧ ∀ c ∈ hash, ('0' ≤ c ∧ c ≤ '9') ∨ ('a' ≤ c ∧ c ≤ 'f')

/-- The key is one for this index. -/
def KeyFor (key : List Char) (index : Nat) : Prop := ∃ hash digits, NamedFor key index hash digits

/-- The bucket has files for exactly these indices, and nothing else. -/
structure Holds (b : Bucket) (lo hi : Nat) : Prop where
  only : ∀ e ∈ b, ∃ k, lo ≤ k ∧ k < hi ∧ KeyFor e.1 k
  all : ∀ k, lo ≤ k → k < hi → ∃ e ∈ b, KeyFor e.1 k

/-- An E2HS file for this index: exactly its 8192 blocks, in order, each with its number, a proof that is accepted, and a
body and receipts with the roots of the header; summaries are those of a state that a node answered with. The key is that
of the index and of the hash of the last block. -/
def GoodFile (i : Inputs Tx Rc Wd) (served : List Summary → Prop) (index : Nat) (key : List Char) (bytes : Bytes) : Prop :=
  ∃ (ts : List (Full Tx Rc Wd)) (b : Archive.BlockIndex) (last : Full Tx Rc Wd) (digits : List Char), ts.length = 8192 ∧
    E2hs.deserialize (e2hsFormat i.codecs) bytes = .ok ⟨versionEntry, ts, b⟩ ∧ b.startingNumber.toNat = index * 8192 ∧
    (∀ (k : Nat) f, ts[k]? = some f → ∃ s, served s ∧ GoodBlock i s (index * 8192 + k) f) ∧ ts.getLast? = some last ∧
    NamedFor key index
      (((i.lib.keccak (i.lib.header.enc last.headerWithProof.1)).bytes.take 4).flatMap fun x =>
        [Hex.digit (x.toNat / 16), Hex.digit (x.toNat % 16)]) digits

/-- The nodes of an event. -/
def NodeOf (e : Event Rc Wd) (node : Node Rc Wd) : Prop :=
  match e with
  | .start _ n => node = n
  | .tick _ n ns _ => node = n ∨ ∃ k, node = ns k
  | .kill => False

/-- The summaries are those of a state that a node answered with during the history. -/
def Served (es : List (Event Rc Wd)) (s : List Summary) : Prop :=
  ∃ e ∈ es, ∃ node, NodeOf e node ∧ ∃ slot st, node.state slot = some st ∧ st.summaries = s

/-- Whenever the generator is started, the keys that are listed for it are keys of the bucket: perhaps not all. -/
def Faithful (i : Inputs Tx Rc Wd) : Sys → List (Event Rc Wd) → Prop
  | _, [] => True
  | s, e :: es =>
    (match e with
      | .start pages _ => ∀ p ∈ pages, ∀ k ∈ p.keys, ∃ o ∈ s.bucket, o.1 = k
      | _ => True) ∧ Faithful i (s.step i e) es

/-- All keys of the bucket in the order of S3, on pages that are marked as they should be. -/
structure Listing (b : Bucket) (pages : List Page) : Prop where
  all : ∀ k, k ∈ pages.flatMap Page.keys ↔ ∃ e ∈ b, e.1 = k
  sorted : (pages.flatMap Page.keys).Pairwise (· < ·)
  more : ∀ p ∈ pages.dropLast, p.truncated = true ∧ p.token = true
  last : ∀ p, pages.getLast? = some p → p.truncated = false

/-! ## Honest nodes -/

/-- The beacon chain from the execution block `lo` on: the slot and the beacon block of each execution block. -/
structure Beacons (Wd : Type) where
  lo : Nat
  hi : Nat
  slotOf : Nat → Nat
  signed : Nat → Signed Wd

/-- The beacon chain is one of Electra, with no more than five skipped slots in a row. -/
structure Canon (i : Inputs Tx Rc Wd) (c : Chain Tx Rc Wd) (a : Beacons Wd) : Prop where
  block : ∀ n, a.lo ≤ n → n ≤ a.hi → BeaconOf i c (a.slotOf n / 8192 + 1) (a.signed n)
  number : ∀ n, a.lo ≤ n → n ≤ a.hi → (a.signed n).number = n
  slot : ∀ n, a.lo ≤ n → n ≤ a.hi → (a.signed n).beacon.slot.toNat = a.slotOf n
  electra : ∀ n, a.lo ≤ n → n ≤ a.hi → (a.signed n).beacon.fork = .electra
  parent : ∀ n, a.lo ≤ n → n < a.hi → (a.signed (n + 1)).beacon.parentRoot = (a.signed n).tree.root i.H
  gap : ∀ n, a.lo ≤ n → n < a.hi → a.slotOf n < a.slotOf (n + 1) ∧ a.slotOf (n + 1) ≤ a.slotOf n + 6
  late : 759 * 8192 ≤ a.slotOf a.lo
  merge : 15537394 ≤ a.lo
  bound : a.slotOf a.hi + 16384 < 2 ^ 64 ∧ a.hi + 16384 < 2 ^ 64

/-- The state at the start of a period has the roots of the period before and all summaries up to it. -/
structure StateOf (i : Inputs Tx Rc Wd) (c : Chain Tx Rc Wd) (period : Nat) (st : BState) : Prop where
  slot : st.slot = (period + 1) * 8192
  batch : st.batch = c.batch (period + 1)
  summaries : ∀ q, 758 ≤ q → q ≤ period → ∃ s, st.summaries[q - 758]? = some s ∧
    s.blockSummaryRoot = containerRoot i.H (c.batch (q + 1)).blockRoots.toList

/-- A node that follows the chain and has finalized block `fin`. -/
structure Follows (i : Inputs Tx Rc Wd) (c : Chain Tx Rc Wd) (a : Beacons Wd) (fin : Nat) (node : Node Rc Wd) : Prop where
  range : a.lo ≤ fin ∧ fin ≤ a.hi
  finalized : node.finalized = some (a.signed fin)
  block : ∀ n, a.lo ≤ n → n ≤ a.hi → node.block (a.slotOf n) = some (a.signed n)
  skipped : ∀ s, a.slotOf a.lo ≤ s → s ≤ a.slotOf a.hi → (∀ n, a.lo ≤ n → n ≤ a.hi → a.slotOf n ≠ s) → node.block s = none
  root : ∀ n, a.lo ≤ n → n ≤ a.hi → node.blockByRoot ((a.signed n).tree.root i.H) = some (a.signed n)
  header : ∀ n, a.lo ≤ n → n ≤ a.hi → node.header n = some (c.header n)
  receipts : ∀ n, a.lo ≤ n → n ≤ a.hi → node.receipts n = some (c.receipts n)

/-- It also has a state for the first slot of every period that started, even when there is no block in that slot. -/
structure HonestNode (i : Inputs Tx Rc Wd) (c : Chain Tx Rc Wd) (a : Beacons Wd) (fin : Nat) (node : Node Rc Wd) : Prop
    extends Follows i c a fin node where
  state : ∀ p, a.slotOf a.lo / 8192 ≤ p → (p + 1) * 8192 ≤ a.slotOf fin → ∃ st, node.state ((p + 1) * 8192) = some st ∧
    StateOf i c p st

/-- `first` is the first block of the period that block `fin` is in. -/
def FirstOfPeriod (a : Beacons Wd) (fin first : Nat) : Prop :=
  a.lo < first ∧ first ≤ fin ∧ a.slotOf first / 8192 = a.slotOf fin / 8192 ∧
    a.slotOf (first - 1) / 8192 < a.slotOf fin / 8192

/-- The file holds the blocks of the chain. -/
def ChainFile (i : Inputs Tx Rc Wd) (c : Chain Tx Rc Wd) (index : Nat) (bytes : Bytes) : Prop :=
  ∃ (ts : List (Full Tx Rc Wd)) (b : Archive.BlockIndex), ts.length = 8192 ∧
    E2hs.deserialize (e2hsFormat i.codecs) bytes = .ok ⟨versionEntry, ts, b⟩ ∧
    ∀ k < 8192, ∃ p : HeaderProof, ts[k]? = some ⟨(c.header (index * 8192 + k), p), c.body (index * 8192 + k),
      c.receipts (index * 8192 + k)⟩

/-- The file with this index after rounds of the loop, where `first` is the first block of the latest finalized period: one
more when its blocks are all before it. -/
def indexAfter (index : Nat) (firsts : List Nat) : Nat :=
  firsts.foldl (fun index first => if index * 8192 + 8192 ≤ first then index + 1 else index) index

/-- The node without a state for a slot: for the slot after it, it has one. -/
def without (node : Node Rc Wd) (slot : Nat) (st : BState) : Node Rc Wd :=
  { node with state := fun s => if s = slot then none else if s = slot + 1 then some st else node.state s }

/-- An upload where nothing fails. -/
def S3.Works (s : S3) : Prop := s.create = true ∧ (∀ k, s.part k = true) ∧ s.complete = .done

/-- A round of the loop with honest nodes and a working bucket; `first` is the first block of the period that the node has
finalized. -/
def HonestRound (i : Inputs Tx Rc Wd) (c : Chain Tx Rc Wd) (a : Beacons Wd) (first : Nat) (e : Event Rc Wd) : Prop :=
  ∃ fuel fin node nodes s, e = .tick fuel node nodes s ∧ 0 < fuel ∧ HonestNode i c a fin node ∧ FirstOfPeriod a fin first ∧
    (∀ j, ∃ fin', fin ≤ fin' ∧ HonestNode i c a fin' (nodes j)) ∧ S3.Works s

end Verif.HeadSpec
