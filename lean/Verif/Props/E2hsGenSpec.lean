import Verif.Model.E2hsGen
import Verif.Props.ExecBuilderSpec
import Verif.Props.PreMerge

/-! # What a generated E2HS file should hold, and what honest archives serve -/

namespace Verif.E2hsSpec
open Verif Verif.E2hsGen Verif.Props
open Verif.E2store (Res)
open Verif.HistoryValue (Body)
open Verif.HeaderValidator (Summary Record containerRoot Fork)
open Verif.ExecBuilder (Header Beacon ExecLib)

variable {Tx Rc Wd : Type}

/-- A block of the file: it has this number, its proof is accepted by a validator that trusts these summaries, and its
uncles, transactions, withdrawals and receipts have the roots that the header states. -/
structure GoodBlock (i : Inputs Tx Rc Wd) (summaries : List Summary) (n : Nat) (f : Full Tx Rc Wd) : Prop where
  number : f.headerWithProof.1.number.toNat = n
  proof : (HeaderValidator.validate i.H i.net i.trusted [] (fun _ => some summaries)
    ⟨f.headerWithProof.1.number, f.headerWithProof.1.timestamp, i.lib.keccak (i.lib.header.enc f.headerWithProof.1)⟩
    f.headerWithProof.2).1 = .accept
  ommers : i.lib.keccak (i.lib.ommers.enc f.body.ommers) = f.headerWithProof.1.ommersHash
  transactions : i.lib.trieRoot (f.body.transactions.map i.lib.tx.enc) = f.headerWithProof.1.transactionsRoot
  withdrawals : ∀ ws, f.body.withdrawals = some ws →
    f.headerWithProof.1.withdrawalsRoot = some (i.lib.trieRoot (ws.map i.lib.withdrawal.enc))
  receipts : i.lib.trieRoot (f.receipts.map i.lib.receipt.enc) = f.headerWithProof.1.receiptsRoot

/-- The execution chain, the first execution block of every era, and the roots of every era. -/
structure Chain (Tx Rc Wd : Type) where
  header : Nat → Header
  body : Nat → Body Header Tx Wd
  receipts : Nat → List Rc
  first : Nat → Nat
  batch : Nat → Batch
  /-- the newest era in the archive -/
  lastEra : Nat

/-- The block numbers of eras: the first with an execution payload (574) has the merge block, every era has a block. -/
structure Eras (c : Chain Tx Rc Wd) : Prop where
  merge : c.first 574 = 15537394
  last : 574 ≤ c.lastEra
  mono : ∀ e, 574 ≤ e → e ≤ c.lastEra → c.first e < c.first (e + 1)
  bound : c.first (c.lastEra + 1) < 2 ^ 64

/-- A beacon block of era `e`, with the execution block of its number. -/
structure BeaconOf (i : Inputs Tx Rc Wd) (c : Chain Tx Rc Wd) (e : Nat) (b : Signed Wd) : Prop where
  block : BlockOf i.lib b.beacon (c.header b.number) (c.body b.number)
  hash : b.tree.blockHash = b.beacon.payload.blockHash
  slot : b.beacon.slot.toNat / 8192 + 1 = e
  root : (c.batch e).blockRoots.toList[b.beacon.slot.toNat % 8192]? = some (b.tree.root i.H)
  /-- the forks: time, and what the roots of the era are part of -/
  bellatrix : b.beacon.fork = .bellatrix → (c.header b.number).timestamp < i.net.shanghaiTime ∧
    i.trusted.historicalRoots[e - 1]? = some (i.H (containerRoot i.H (c.batch e).blockRoots.toList)
      (containerRoot i.H (c.batch e).stateRoots.toList))
  capella : b.beacon.fork = .capella → i.net.shanghaiTime ≤ (c.header b.number).timestamp ∧
    (c.header b.number).timestamp < i.net.cancunTime
  deneb : b.beacon.fork = .deneb ∨ b.beacon.fork = .electra → i.net.cancunTime ≤ (c.header b.number).timestamp
  /-- Capella starts with period 758 -/
  summaries : b.beacon.fork ≠ .bellatrix → 758 < e

/-- The file of era `e`: its blocks, perhaps with blocks from before the merge, which hold block number 0, in front; and
the state at its end. -/
structure EraOf (i : Inputs Tx Rc Wd) (c : Chain Tx Rc Wd) (e : Nat) (era : Era Wd) : Prop where
  epoch : era.epochIndex = e
  blocks : ∃ old new, era.blocks = old ++ new ∧ (e ≠ 574 → old = []) ∧ (∀ b ∈ old, b.number = 0) ∧
    new.map Signed.number = List.range' (c.first e) (c.first (e + 1) - c.first e) ∧ ∀ b ∈ new, BeaconOf i c e b
  batch : era.batch = c.batch e
  summaries : 758 < e → ∃ l, era.summaries = some l ∧ ∀ p, 758 ≤ p → p < e →
    ∃ s, l[p - 758]? = some s ∧ s.blockSummaryRoot = containerRoot i.H (c.batch (p + 1)).blockRoots.toList

/-- Blocks before the merge: the era1 files are listed, and there is an era1 file and an accumulator for the 8192 blocks
of this index (the last ones are shorter). -/
structure HonestEra1 (i : Inputs Tx Rc Wd) (c : Chain Tx Rc Wd) (index : Nat) : Prop where
  links : ∃ keys, i.site.era1Links = some keys ∧ keys.Perm (List.range 1897)
  file : index < 1897 → ∃ td : Nat → BitVec 256, i.site.era1 index =
    .ok ((List.range' (index * 8192) (min 8192 (15537394 - index * 8192))).map fun n =>
      ⟨c.header n, c.body n, c.receipts n, td n⟩)
  accumulator : index < 1897 → ∃ records, i.trusted.epochs[index]? = some (epochRoot i.H records) ∧
    i.accumulator (epochRoot i.H records) = some records ∧ records.length ≤ 8192 ∧
    ∀ n < 15537394, n / 8192 = index → ∃ r, records[n % 8192]? = some r ∧
      r.blockHash = i.lib.keccak (i.lib.header.enc (c.header n))

/-- Blocks after the merge: era files, and receipts from a node. -/
structure HonestEra (i : Inputs Tx Rc Wd) (c : Chain Tx Rc Wd) : Prop where
  links : ∃ keys, i.site.eraLinks = some keys ∧ keys.Perm (List.range (c.lastEra + 1))
  file : ∀ e, 574 ≤ e → e ≤ c.lastEra → ∃ era, i.site.era e = .ok era ∧ EraOf i c e era ∧
    ∀ b, era.blocks.head? = some b → i.site.first e = .ok b.number
  receipts : ∀ ns, i.receipts ns = some (ns.map fun n => some (c.receipts n))

/-- The chain is one: blocks have their number, and bodies and receipts the roots in the headers. -/
structure ChainOk (i : Inputs Tx Rc Wd) (c : Chain Tx Rc Wd) : Prop where
  number : ∀ n < 2 ^ 64, (c.header n).number.toNat = n
  roots : ∀ n, RootsOf i.lib (c.header n) (c.body n)
  receipts : ∀ n, i.lib.trieRoot ((c.receipts n).map i.lib.receipt.enc) = (c.header n).receiptsRoot

/-- Everything is small enough for records, which have lengths of 4 bytes. -/
structure Fits (i : Inputs Tx Rc Wd) (c : Chain Tx Rc Wd) : Prop where
  header : ∀ n p, (i.codecs.headerWithProof.enc (c.header n, p)).length + 8 < 2 ^ 32
  body : ∀ n, (i.codecs.body.enc (c.body n)).length + 8 < 2 ^ 32
  receipts : ∀ n, (i.codecs.receipts.enc (c.receipts n)).length + 8 < 2 ^ 32

/-- The blocks of an index are in at most three files: an era1 file and two era files, or three era files. -/
def ThreeFiles (c : Chain Tx Rc Wd) (index : Nat) : Prop :=
  if index * 8192 < 15537394 then index * 8192 + 8192 ≤ 15537394 ∨
    index * 8192 + 8192 ≤ c.first (min 576 (c.lastEra + 1))
  else ∃ e, 574 ≤ e ∧ c.first e ≤ index * 8192 ∧ index * 8192 < c.first (e + 1) ∧
    index * 8192 + 8192 ≤ c.first (min (e + 3) (c.lastEra + 1)) ∧ e ≤ c.lastEra

/-- The summaries that blocks are checked with come from an era file of the archive. -/
def FromArchive (i : Inputs Tx Rc Wd) (summaries : List Summary) : Prop :=
  summaries = [] ∨ ∃ e era, i.site.era e = .ok era ∧ era.summaries = some summaries

/-- Everything that the completeness of a file needs. -/
structure HonestWorld (i : Inputs Tx Rc Wd) (c : Chain Tx Rc Wd) (index : Nat) : Prop where
  eras : Eras c
  before : HonestEra1 i c index
  after : HonestEra i c
  chain : ChainOk i c
  fits : Fits i c
  three : ThreeFiles c index
  paris : i.net.parisBlock.toNat = 15537394
  latest : ∃ l, i.latest = some l ∧ index * 8192 ≤ l ∧ l < 2 ^ 64

end Verif.E2hsSpec
