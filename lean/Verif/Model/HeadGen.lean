import Verif.Model.E2hsGen
import Verif.Model.Hex

/-!
# The head generator of E2HS files
(`bin/e2hs-writer/src/subcommands/head_generator/{mod,e2hs_builder,s3_bucket}.rs`,
`crates/ethereum-rpc-client/src/consensus/mod.rs`, `crates/ethereum-rpc-client/src/execution.rs`)

Of `Inputs` only the library, the hash, the network, the trusted accumulators and the codecs are used here; what nodes and
the bucket answer is given for every request. Numbers of blocks, indices and slots are `u64`s and kept as natural numbers;
where they are increased the overflow, which aborts with overflow checks, is modelled. Errors of the local file system are
left out: files are written to a new temporary directory, one for each index.
-/

namespace Verif.HeadGen
open Verif.E2hsGen (Inputs Batch Signed Full proofFor parisAt validateBlock fullHash)
open Verif.HeaderValidator (Summary)
open Verif.E2store (Res)
open Verif.ExecBuilder (Header)
open Verif.Archive (e2hsFormat Writer)

variable {Tx Rc Wd : Type}

/-- The fields of `BeaconStateElectra` that are read. -/
structure BState where
  slot : Nat
  batch : Batch
  summaries : List Summary

/-- What the nodes answer (`none`: an error): the finalized beacon block, beacon blocks and states by slot, beacon blocks by
root (`ConsensusApi`), headers and receipts by number (`ExecutionApi`). -/
structure Node (Rc Wd : Type) where
  finalized : Option (Signed Wd)
  block : Nat → Option (Signed Wd)
  blockByRoot : Id → Option (Signed Wd)
  state : Nat → Option BState
  header : Nat → Option Header
  receipts : Nat → Option (List Rc)

/-- A result, or `none` when there is none after the given number of rounds. -/
abbrev Run (α : Type) := Option (Res α)

def Run.bind {α β : Type} (x : Run α) (f : α → Run β) : Run β :=
  match x with
  | none => none
  | some (.ok a) => f a
  | some .err => some .err
  | some .panic => some .panic

/-- `get_beacon_block` (consensus/mod.rs:155-164): the answer is decoded as a block of Electra. -/
def electra (x : Option (Signed Wd)) : Option (Signed Wd) := x.filter fun b => b.beacon.fork == .electra

/-- The loop of `find_first_beacon_block` (consensus/mod.rs:218-228), with the number of errors that are accepted. -/
def findFrom (node : Node Rc Wd) : (left slot : Nat) → Res (Signed Wd)
  | left, slot =>
    match electra (node.block slot) with
    | some b => .ok b
    | none =>
      match left with
      | 0 => .err
      | k + 1 => if slot + 1 ≥ 2 ^ 64 then .panic else findFrom node k (slot + 1)

/-- `find_first_beacon_block` (consensus/mod.rs:211-229). -/
def findFirst (node : Node Rc Wd) (slot : Nat) : Res (Signed Wd) := findFrom node 5 slot

/-- `first_slot_in_a_period` (consensus/mod.rs:446-448). -/
def firstSlot (slot : Nat) : Nat := slot / 8192 * 8192

/-- The loop of `get_state_for_start_of_next_period` (consensus/mod.rs:177-202). -/
def stateFrom (node : Node Rc Wd) : (fuel slot tries : Nat) → Run BState
  | 0, _, _ => none
  | k + 1, slot, tries =>
    match node.state slot with
    | some st =>
      if st.slot < slot then
        if slot + 1 ≥ 2 ^ 64 then some .panic else stateFrom node k (slot + 1) (tries + 1)
      else if st.slot ≠ slot then some .err
      else some (.ok st)
    | none =>
      if tries + 1 > 5 then some .err
      else if slot + 1 ≥ 2 ^ 64 then some .panic
      else stateFrom node k (slot + 1) (tries + 1)

/-- `get_state_for_start_of_next_period` (consensus/mod.rs:166-203). -/
def stateForNext (node : Node Rc Wd) (fuel slot : Nat) : Run BState :=
  if slot + 8192 ≥ 2 ^ 64 then some .panic else stateFrom node fuel (firstSlot (slot + 8192)) 0

/-- `first_block_in_latest_finalized_period` (consensus/mod.rs:232-241). -/
def firstFinalized (node : Node Rc Wd) : Res (Signed Wd) :=
  match electra node.finalized with
  | none => .err
  | some b => findFirst node (firstSlot b.beacon.slot.toNat)

/-- `E2HSBuilder` and `ProvingAnchors` (e2hs_builder.rs:20-24, 43-50); `cache` is that of the header validator. -/
structure Builder where
  index : Nat
  slot : Nat
  anchor : Nat
  batch : Batch
  summaries : List Summary
  cache : List Summary

/-- `find_slot_for_execution_block_number` (e2hs_builder.rs:172-189) with `get_block` (execution.rs:63-87). -/
def findSlot (i : Inputs Tx Rc Wd) (node : Node Rc Wd) (n : Nat) : Res Nat :=
  if n + 1 ≥ 2 ^ 64 then .panic
  else
    match node.header (n + 1) with
    | none => .err
    | some h =>
      if !parisAt i.net h.number.toNat then .err
      else
        match h.parentBeaconBlockRoot with
        | none => .err
        | some root =>
          match electra (node.blockByRoot root) with
          | none => .err
          | some b => .ok b.beacon.slot.toNat

/-- `E2HSBuilder::new` (e2hs_builder.rs:53-85) with `ProvingAnchors::new` (31-40). -/
def newBuilder (i : Inputs Tx Rc Wd) (node : Node Rc Wd) (index : Nat) : Res Builder :=
  if index * 8192 ≥ 2 ^ 64 then .panic
  else
    (findSlot i node (index * 8192)).map fun slot =>
      ⟨index, slot, 0, ⟨Vector.replicate 8192 0, Vector.replicate 8192 0⟩, [], []⟩

/-- `update_proving_anchors` (e2hs_builder.rs:126-147). -/
def updateAnchors (node : Node Rc Wd) (fuel : Nat) (b : Builder) (slot : Nat) : Run Builder :=
  match ChainHead.historicalSummaryIndex slot with
  | none => some .panic
  | some k =>
    if k = b.anchor then some (.ok b)
    else
      Run.bind (stateForNext node fuel slot) fun st =>
        some (.ok { b with anchor := k, summaries := st.summaries, cache := [], batch := st.batch })

/-- `build_block` (e2hs_builder.rs:149-169). -/
def buildBlock (i : Inputs Tx Rc Wd) (node : Node Rc Wd) (b : Builder) (n : Nat) (x : Signed Wd) : Res (Full Tx Rc Wd) :=
  if x.number ≠ n then .err
  else
    (ExecBuilder.build i.lib (fun k batch => proofFor i.H k.slot batch x.beacon.fork x.tree) x.beacon b.batch).bind fun r =>
      match node.receipts n with
      | none => .err
      | some rs => .ok ⟨r.1, r.2, rs⟩

/-- One round of the loop of `build_e2hs_file` (e2hs_builder.rs:94-116) without the writer. -/
def round (i : Inputs Tx Rc Wd) (node : Node Rc Wd) (fuel : Nat) (b : Builder) (n : Nat) : Run (Full Tx Rc Wd × Builder) :=
  Run.bind (some (findFirst node b.slot)) fun x =>
    Run.bind (updateAnchors node fuel b x.beacon.slot.toNat) fun b =>
      Run.bind (some (buildBlock i node b n x)) fun f =>
        Run.bind (some (validateBlock i b.summaries b.cache f)) fun cache =>
          if x.beacon.slot.toNat + 1 ≥ 2 ^ 64 then some .panic
          else some (.ok (f, { b with cache := cache, slot := x.beacon.slot.toNat + 1 }))

/-- The loop of `build_e2hs_file` (e2hs_builder.rs:94-116). `nodes n` is what is answered while block `n` is built: every
request is made at most once for a block. -/
def writeLoop (i : Inputs Tx Rc Wd) (nodes : Nat → Node Rc Wd) (fuel : Nat) :
    List Nat → Builder → Writer → Run (Writer × Builder)
  | [], b, w => some (.ok (w, b))
  | n :: ns, b, w =>
    Run.bind (round i (nodes n) fuel b n) fun r =>
      Run.bind (some (w.append (e2hsFormat i.codecs) (fullHash i) r.1)) fun w => writeLoop i nodes fuel ns r.2 w

/-- `build_e2hs_file` (e2hs_builder.rs:87-123): the bytes of the file and what makes up its name. -/
def buildFile (i : Inputs Tx Rc Wd) (nodes : Nat → Node Rc Wd) (fuel : Nat) (b : Builder) :
    Run ((Bytes × UInt64 × Bytes) × Builder) :=
  if b.index * 8192 + 8192 ≥ 2 ^ 64 then some .panic
  else
    Run.bind (some (Writer.create (UInt64.ofNat b.index))) fun w =>
      Run.bind (writeLoop i nodes fuel (List.range' (b.index * 8192) 8192) b w) fun r =>
        Run.bind (some r.1.finish) fun out => some (.ok (out, { r.2 with index := r.2.index + 1 }))

/-! ## Names of files -/

/-- A number in decimal digits. -/
def decimal (n : Nat) : List Char :=
  if n < 10 then [Char.ofNat (48 + n)] else decimal (n / 10) ++ [Char.ofNat (48 + n % 10)]

/-- The name of a file (e2hs.rs:130-138): `{:05}` pads to five digits. -/
def fileName (index : Nat) (hash : Bytes) : List Char :=
  "mainnet-".toList ++ (List.replicate (5 - (decimal index).length) '0' ++ decimal index) ++
    '-' :: (Hex.hexBody Hex.digit hash ++ ".e2hs".toList)

/-- `split('-')`. -/
def splitDash : List Char → List (List Char)
  | [] => [[]]
  | c :: cs =>
    if c = '-' then [] :: splitDash cs
    else
      match splitDash cs with
      | [] => [[c]]
      | p :: ps => (c :: p) :: ps

/-- The value of decimal digits. -/
def parseDigits : List Char → Nat → Option Nat
  | [], acc => some acc
  | c :: cs, acc => if '0' ≤ c ∧ c ≤ '9' then parseDigits cs (acc * 10 + (c.toNat - 48)) else none

/-- `str::parse::<u64>`: digits, perhaps with a `+` in front. -/
def parseU64 (cs : List Char) : Option Nat :=
  let ds := if cs.head? = some '+' then cs.tail else cs
  if ds = [] then none else (parseDigits ds 0).filter fun n => n < 2 ^ 64

/-- `extract_index_from_file_name` (mod.rs:110-116). -/
def extractIndex (name : List Char) : Option Nat :=
  match splitDash name with
  | [_, p, _] => parseU64 p
  | _ => none

/-! ## The bucket -/

/-- A page of keys (`list_objects_v2`): whether there are more, and whether there is a token to ask for them. -/
structure Page where
  keys : List (List Char)
  truncated : Bool
  token : Bool

/-- `last_file_name` (s3_bucket.rs:132-168). The request after the last page of the list fails. -/
def lastKey : List Page → Option (List Char) → Res (Option (List Char))
  | [], last => .ok last
  | p :: ps, last =>
    let last := p.keys.getLast?.or last
    if p.truncated then if p.token then lastKey ps last else .err
    else .ok last

/-- `last_file_name`, with the error when there is no key. -/
def lastFileName (pages : List Page) : Res (List Char) :=
  (lastKey pages none).bind fun last =>
    match last with
    | none => .err
    | some key => .ok key

/-- `TARGET_CHUNK_SIZE` (s3_bucket.rs:14). -/
def targetChunk : Nat := 100 * 1024 * 1024

/-- `usize::div_ceil`, which aborts for 0. -/
def divCeil (a b : Nat) : Option Nat := if b = 0 then none else some ((a + b - 1) / b)

/-- `chunks` of a slice. -/
def chunksOf (size : Nat) : (fuel : Nat) → Bytes → List Bytes
  | 0, _ => []
  | k + 1, l => if l.isEmpty then [] else l.take size :: chunksOf size k (l.drop size)

/-- The parts of a file with their numbers, from 1 on (s3_bucket.rs:57-60, 80-82); `none`: it aborts. -/
def parts (data : Bytes) : Option (List (Nat × Bytes)) :=
  (divCeil data.length targetChunk).bind fun count =>
    (divCeil data.length count).map fun size =>
      (chunksOf size data.length data).zipIdx.map fun p => (p.2 + 1, p.1)

/-- What becomes of the request to complete an upload: done, done although the answer is lost, or not done. -/
inductive Completed where
  | done
  | lost
  | failed

/-- What the store answers during an upload. -/
structure S3 where
  create : Bool
  part : Nat → Bool
  complete : Completed

/-- Objects by key. -/
abbrev Bucket := List (List Char × Bytes)

/-- Storing an object under a key. -/
def Bucket.put (b : Bucket) (key : List Char) (data : Bytes) : Bucket := (key, data) :: b.filter fun e => e.1 ≠ key

/-- `upload_file_from_path` (s3_bucket.rs:64-130) for the parts of the file: the result, and the bucket. An object is made
when its upload is completed, of the parts that are named, each as it was uploaded under its number. -/
def uploadParts (s : S3) (bucket : Bucket) (key : List Char) : Option (List (Nat × Bytes)) → Res Unit × Bucket
  | none => (.panic, bucket)
  | some ps =>
    if !s.create then (.err, bucket)
    else if ps.any fun p => !s.part p.1 then (.err, bucket)
    else
      let object := (ps.map fun p => p.1).flatMap fun k => ((ps.reverse.find? fun p => p.1 = k).map fun p => p.2).getD []
      match s.complete with
      | .done => (.ok (), bucket.put key object)
      | .lost => (.err, bucket.put key object)
      | .failed => (.err, bucket)

/-- `upload_file_from_path` (s3_bucket.rs:37-130). -/
def upload (s : S3) (bucket : Bucket) (key : List Char) (data : Bytes) : Res Unit × Bucket :=
  uploadParts s bucket key (parts data)

/-! ## The generator -/

/-- `MAX_ALLOWED_BLOCK_BACKFILL_SIZE` (mod.rs:28). -/
def maxBackfill : Nat := 3 * 30 * 24 * 60 * 60 / 12

/-- `amount_of_blocks_that_can_be_backfilled` (mod.rs:95-107): the subtraction aborts when it is negative (with overflow
checks). -/
def amount (node : Node Rc Wd) (index : Nat) : Res Nat :=
  (firstFinalized node).bind fun b => if b.number < index * 8192 then .panic else .ok (b.number - index * 8192)

/-- `HeadGenerator::new` (mod.rs:36-45) and the check at the start of `run` (48-52). -/
def start (i : Inputs Tx Rc Wd) (pages : List Page) (node : Node Rc Wd) : Res Builder :=
  (lastFileName pages).bind fun name =>
    match extractIndex name with
    | none => .err
    | some last =>
      if last + 1 ≥ 2 ^ 64 then .panic
      else
        (newBuilder i node (last + 1)).bind fun b =>
          (amount node b.index).bind fun a => if a < maxBackfill then .ok b else .err

/-- After an upload (mod.rs:90-92): the generator goes on if it succeeded. -/
def uploaded (b : Builder) (r : Res Unit × Bucket) : Option Builder × Bucket :=
  match r.1 with
  | .ok _ => (some b, r.2)
  | .err => (none, r.2)
  | .panic => (none, r.2)

/-- One round of the loop of `run` (mod.rs:54-72) with `build_and_upload_e2hs_file` (77-93): what the generator goes on with
(nothing when it stops, aborts or does not get on), and the bucket. -/
def tick (i : Inputs Tx Rc Wd) (fuel : Nat) (node : Node Rc Wd) (nodes : Nat → Node Rc Wd) (s : S3) (b : Builder)
    (bucket : Bucket) : Option Builder × Bucket :=
  match amount node b.index with
  | .err => (none, bucket)
  | .panic => (none, bucket)
  | .ok a =>
    if a ≥ 8192 then
      match buildFile i nodes fuel b with
      | some (.ok ((bytes, epoch, hash), b)) => uploaded b (upload s bucket (fileName epoch.toNat hash) bytes)
      | _ => (none, bucket)
    else (some b, bucket)

/-- What happens to the generator: it is started, it goes through its loop, it is killed. -/
inductive Event (Rc Wd : Type) where
  | start (pages : List Page) (node : Node Rc Wd)
  | tick (fuel : Nat) (node : Node Rc Wd) (nodes : Nat → Node Rc Wd) (s : S3)
  | kill

/-- The bucket, and the generator if it runs. -/
structure Sys where
  bucket : Bucket
  gen : Option Builder

/-- What an event does. Starting ends a generator that still runs. -/
def Sys.step (i : Inputs Tx Rc Wd) (s : Sys) : Event Rc Wd → Sys
  | .start pages node =>
    match HeadGen.start i pages node with
    | .ok b => { s with gen := some b }
    | _ => { s with gen := none }
  | .tick fuel node nodes s3 =>
    match s.gen with
    | none => s
    | some b =>
      let r := HeadGen.tick i fuel node nodes s3 b s.bucket
      ⟨r.2, r.1⟩
  | .kill => { s with gen := none }

/-- A history. -/
def Sys.run (i : Inputs Tx Rc Wd) (s : Sys) (es : List (Event Rc Wd)) : Sys := es.foldl (Sys.step i) s

end Verif.HeadGen
