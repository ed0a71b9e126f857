import Verif.Model.ExecBuilder
import Verif.Model.Archive

/-!
# The single generator of E2HS files
(`bin/e2hs-writer/src/subcommands/single_generator/{mod,e2hs_builder,era_binary_search,provider}.rs`, `full_block.rs`,
`crates/e2store/src/{utils,era}.rs`, `crates/ethereum-rpc-client/src/execution.rs`)

The archives, the node and the accumulator files are inputs; they do not change during a run. Block numbers, indices of
files and slots of files are `u64`s and kept as natural numbers; where a number that was downloaded is increased the
overflow is modelled.
-/

namespace Verif.E2hsGen
open Verif.HistoryValue (Body)
open Verif.HeaderValidator (Fork Block HeaderProof Net Trusted Summary Record Verdict)
open Verif.E2store (Res)
open Verif.ExecBuilder (Header Beacon ExecLib)
open Verif.Archive (Era1Tuple E2hsTuple E2hsCodecs e2hsFormat Writer)

variable {Tx Rc Wd : Type}

/-- `HistoricalBatch` (beacon_state.rs:385-388). -/
structure Batch where
  blockRoots : Vector Id 8192
  stateRoots : Vector Id 8192

/-- A beacon block: what is read to build the execution block, and the roots of its fields. -/
structure Signed (Wd : Type) where
  beacon : Beacon Wd
  tree : Block beacon.fork

/-- The proof for a beacon block (block.rs:43-164: `build_historical_roots_proof`,
`build_capella_historical_summaries_proof`, ...). -/
def proofFor (H : Id → Id → Id) (slot : UInt64) (batch : Batch) : (fork : Fork) → Block fork → Option HeaderProof
  | .bellatrix, b => (HeaderValidator.buildRootsProof H slot batch.blockRoots batch.stateRoots b).map .roots
  | .capella, b => (HeaderValidator.buildCapellaProof H slot batch.blockRoots b).map .capella
  | .deneb, b => (HeaderValidator.buildDenebProof H slot batch.blockRoots b).map .deneb
  | .electra, b => (HeaderValidator.buildDenebProof H slot batch.blockRoots b).map .deneb

/-- `MinimalEra` (provider.rs:49-54, 75-86) with the index that the file states (`Era::epoch_index`, era.rs:150-152). -/
structure Era (Wd : Type) where
  epochIndex : Nat
  blocks : List (Signed Wd)
  batch : Batch
  summaries : Option (List Summary)

/-- A block of an era1 file. -/
abbrev Era1Block (Tx Rc Wd : Type) := Era1Tuple Header (Body Header Tx Wd) (List Rc)

/-- `EraSource` (provider.rs:26-31). -/
inductive Source (Tx Rc Wd : Type) where
  | pre (tuples : List (Era1Block Tx Rc Wd))
  | post (era : Era Wd)

/-- The number of the execution block in a beacon block. -/
def Signed.number (b : Signed Wd) : Nat := b.beacon.executionBlockNumber.toNat

/-- `EraSource::last_block` (provider.rs:33-47): aborts (`none`) when there are no blocks. -/
def Source.lastBlock : Source Tx Rc Wd → Option Nat
  | .pre tuples => tuples.getLast?.map fun t => t.header.number.toNat
  | .post era => era.blocks.getLast?.map Signed.number

/-- `Era::contains` (era.rs:139-148). -/
def Era.contains (e : Era Wd) (n : Nat) : Bool :=
  match e.blocks.head?, e.blocks.getLast? with
  | some a, some b => a.number ≤ n && n ≤ b.number
  | _, _ => false

/-- `MinimalEra::get_block` (provider.rs:57-72): aborts (`none`) when there are no blocks. -/
def Era.getBlock (e : Era Wd) (n : Nat) : Option (Option (Signed Wd)) :=
  match e.blocks.head?, e.blocks.getLast? with
  | some a, some b =>
    if a.number ≤ n && n ≤ b.number then some (e.blocks.find? fun x => x.number = n) else some none
  | _, _ => none

/-- What the archives serve: the indices listed for era and era1 files (`none` when the page cannot be read), the number
of the execution block in the first beacon block of an era file, and the files. -/
structure Site (Tx Rc Wd : Type) where
  eraLinks : Option (List Nat)
  era1Links : Option (List Nat)
  first : Nat → Res Nat
  era : Nat → Res (Era Wd)
  era1 : Nat → Res (List (Era1Block Tx Rc Wd))

/-- `assert_nonempty_and_consecutive_epochs` (utils.rs:86-103), for the keys of the map (without duplicates). -/
def checkLinks (keys : List Nat) : Bool := !keys.isEmpty && (List.range keys.length).all fun i => keys.contains i

/-- `ERA1_FILE_COUNT` (utils.rs:13). -/
def era1FileCount : Nat := 1897
/-- `FIRST_ERA_EPOCH_WITH_EXECUTION_PAYLOAD` (era_binary_search.rs:13). -/
def firstEra : Nat := 574
/-- `get_spec_block_number(SpecId::MERGE)` (spec_id.rs:20). -/
def mergeBlock : Nat := 15537394

/-- The loop of `EraBinarySearch::fetch_era_file` (era_binary_search.rs:40-93). -/
def search (site : Site Tx Rc Wd) (links : List Nat) (last n : Nat) : (fuel start stop : Nat) → Res (Era Wd)
  | 0, _, _ => .err
  | k + 1, start, stop =>
    if start > stop then .err
    else
      let mid := (start + stop) / 2
      if !links.contains mid then .panic
      else
        (site.first mid).bind fun a =>
          if mid + 1 > last then
            (site.era mid).bind fun e => if e.contains n then .ok e else .err
          else if !links.contains (mid + 1) then .panic
          else
            (site.first (mid + 1)).bind fun b =>
              if a = 0 ∨ (a ≤ n ∧ n < b) then
                (site.era mid).bind fun e =>
                  if e.contains n then .ok e
                  else if a < n then search site links last n k (mid + 1) stop
                  else search site links last n k start (mid - 1)
              else if a < n then search site links last n k (mid + 1) stop
              else search site links last n k start (mid - 1)

/-- `EraBinarySearch::fetch_era_file` (era_binary_search.rs:25-96). An iteration removes at least one index from the
range, so as many rounds as there are indices are enough. -/
def fetchEra (site : Site Tx Rc Wd) (links : List Nat) (n : Nat) : Res (Era Wd) :=
  if n < mergeBlock then .err
  else
    let last := links.foldl Nat.max 0
    search site links last n (last + 1 - firstEra) firstEra last

/-- `network_spec().is_paris_active_at_block`. -/
def parisAt (net : Net) (n : Nat) : Bool := net.parisBlock.toNat ≤ n

/-- One round of the loop of `EraProvider::new` (provider.rs:115-152): the file for block `next`, and the index of the
last era file. -/
def fetchNext (net : Net) (site : Site Tx Rc Wd) (links : List Nat) (next : Nat) (prev : Option Nat) :
    Res (Source Tx Rc Wd × Option Nat) :=
  if !parisAt net next then
    match site.era1Links with
    | none => .err
    | some keys =>
      if keys.length ≠ era1FileCount then .err
      else if !checkLinks keys then .err
      else if !keys.contains (next / 8192) then .err
      else (site.era1 (next / 8192)).map fun ts => (.pre ts, prev)
  else
    match prev with
    | some p =>
      if !links.contains (p + 1) then .err
      else (site.era (p + 1)).map fun e => (.post e, some e.epochIndex)
    | none => (fetchEra site links next).map fun e => (.post e, some e.epochIndex)

/-- The loop of `EraProvider::new` (provider.rs:109-155); `none` when it is not finished after `fuel` rounds. The number
of the last block is increased, which aborts when it is the largest `u64` (with overflow checks). -/
def collect (net : Net) (site : Site Tx Rc Wd) (links : List Nat) (stop : Nat) :
    (fuel next : Nat) → (prev : Option Nat) → List (Source Tx Rc Wd) → Option (Res (List (Source Tx Rc Wd)))
  | fuel, next, prev, acc =>
    if next ≥ stop then some (.ok acc)
    else
      match fuel with
      | 0 => none
      | k + 1 =>
        match fetchNext net site links next prev with
        | .err => some .err
        | .panic => some .panic
        | .ok (src, prev) =>
          match src.lastBlock with
          | none => some .panic
          | some n => if n + 1 ≥ 2 ^ 64 then some .panic else collect net site links stop k (n + 1) prev (acc ++ [src])

/-- `EraProvider::new` (provider.rs:98-162). -/
def provider (net : Net) (site : Site Tx Rc Wd) (fuel index : Nat) : Option (Res (List (Source Tx Rc Wd))) :=
  match site.eraLinks with
  | none => some .err
  | some links =>
    if !checkLinks links then some .err
    else
      (collect net site links (index * 8192 + 8192) fuel (index * 8192) none []).map fun r =>
        r.bind fun sources => if sources.length ≤ 3 then .ok sources else .err

/-- `EraProvider::get_pre_merge` (provider.rs:164-183). -/
def getPreMerge (net : Net) (sources : List (Source Tx Rc Wd)) (n : Nat) : Res (Era1Block Tx Rc Wd) :=
  if parisAt net n then .err
  else
    match sources with
    | [] => .panic
    | .pre tuples :: _ =>
      match tuples[n % 8192]? with
      | none => .panic
      | some t => if t.header.number.toNat = n then .ok t else .err
    | .post _ :: _ => .err

/-- The search of `EraProvider::get_post_merge` (provider.rs:193-200). -/
def findPost : List (Source Tx Rc Wd) → Nat → Res (Signed Wd × Batch)
  | [], _ => .err
  | .pre _ :: rest, n => findPost rest n
  | .post era :: rest, n =>
    match era.getBlock n with
    | none => .panic
    | some none => findPost rest n
    | some (some b) => .ok (b, era.batch)

/-- `EraProvider::get_post_merge` (provider.rs:185-201). -/
def getPostMerge (net : Net) (sources : List (Source Tx Rc Wd)) (n : Nat) : Res (Signed Wd × Batch) :=
  if !parisAt net n then .err else findPost sources n

/-- `EraProvider::get_historical_summaries` (provider.rs:203-215). -/
def getSummaries (sources : List (Source Tx Rc Wd)) : Option (List Summary) :=
  match sources.getLast? with
  | some (.post era) => era.summaries
  | _ => none

/-- `chunks` of a slice, with `BATCH_LIMIT` = 10 (execution.rs:27). -/
def chunks : (fuel : Nat) → List Nat → List (List Nat)
  | 0, _ => []
  | k + 1, l => if l.isEmpty then [] else l.take 10 :: chunks k (l.drop 10)

/-- `ExecutionApi::get_receipts_range` (execution.rs:131-176). `api` answers a batch of requests (`none` on an error)
with values, which are `none` when they do not parse. Answers and requests are paired by position. -/
def receiptsRange {α : Type} (api : List Nat → Option (List (Option α))) : List (List Nat) → Option (List (Nat × α))
  | [] => some []
  | c :: cs =>
    match api c with
    | none => none
    | some answers =>
      match ((c.zip answers).mapM fun x => x.2.map fun r => (x.1, r)) with
      | none => none
      | some here => (receiptsRange api cs).map fun rest => here ++ rest

/-- What a run reads besides the archives. `accumulator` reads the file for the hash of an epoch. -/
structure Inputs (Tx Rc Wd : Type) where
  lib : ExecLib Tx Rc Wd
  H : Id → Id → Id
  net : Net
  trusted : Trusted
  codecs : E2hsCodecs (Header × HeaderProof) (Body Header Tx Wd) (List Rc)
  latest : Option Nat
  accumulator : Id → Option (List Record)
  receipts : List Nat → Option (List (Option (List Rc)))
  site : Site Tx Rc Wd

/-- `E2HSBuilder` (e2hs_builder.rs:39-46). -/
structure Builder (Tx Rc Wd : Type) where
  start : Nat
  accumulator : Option (List Record)
  sources : List (Source Tx Rc Wd)
  receipts : List (Nat × List Rc)
  summaries : List Summary

/-- `E2HSBuilder::new` up to the downloads (e2hs_builder.rs:49-74), with `lookup_pre_merge_accumulator` (198-220). -/
def lookupAccumulator (i : Inputs Tx Rc Wd) (index : Nat) : Res (Option (List Record)) :=
  match i.latest with
  | none => .err
  | some latest =>
    if index > latest / 8192 then .err
    else if parisAt i.net (index * 8192) then .ok none
    else
      match i.trusted.epochs[index]? with
      | none => .panic
      | some hash =>
        match i.accumulator hash with
        | none => .err
        | some rs => .ok (some rs)

/-- The receipts (e2hs_builder.rs:76-86). -/
def lookupReceipts (i : Inputs Tx Rc Wd) (index : Nat) : Option (List (Nat × List Rc)) :=
  if parisAt i.net (index * 8192 + 8192) then receiptsRange i.receipts (chunks 8192 (List.range' (index * 8192) 8192))
  else some []

/-- `E2HSBuilder::new` (e2hs_builder.rs:49-106). The downloads run in tasks of their own, so that when one aborts the
result is an error. `none` when the downloads do not end. -/
def newBuilder (i : Inputs Tx Rc Wd) (fuel index : Nat) : Option (Res (Builder Tx Rc Wd)) :=
  match lookupAccumulator i index with
  | .err => some .err
  | .panic => some .panic
  | .ok acc =>
    match provider i.net i.site fuel index with
    | none => none
    | some (.ok sources) =>
      match lookupReceipts i index with
      | none => some .err
      | some rs => some (.ok ⟨index * 8192, acc, sources, rs, (getSummaries sources).getD []⟩)
    | some _ => some .err

/-- `FullBlock` as it is written (full_block.rs:9-13, 31-43). -/
abbrev Full (Tx Rc Wd : Type) := E2hsTuple (Header × HeaderProof) (Body Header Tx Wd) (List Rc)

/-- `get_pre_merge_block_data` (e2hs_builder.rs:122-141). -/
def preBlock (i : Inputs Tx Rc Wd) (b : Builder Tx Rc Wd) (n : Nat) : Res (Full Tx Rc Wd) :=
  (getPreMerge i.net b.sources n).bind fun t =>
    match b.accumulator with
    | none => .err
    | some records =>
      match HeaderValidator.constructProof i.H (i.lib.lib.hdr t.header) records with
      | .error .panic => .panic
      | .error _ => .err
      | .ok p => .ok ⟨(t.header, .hashes p), t.body, t.receipts⟩

/-- `get_post_merge_block_data` with `get_receipts` (e2hs_builder.rs:143-178), given the receipts that are left. -/
def postBlock (i : Inputs Tx Rc Wd) (b : Builder Tx Rc Wd) (left : List (Nat × List Rc)) (n : Nat) :
    Res (Full Tx Rc Wd × List (Nat × List Rc)) :=
  (getPostMerge i.net b.sources n).bind fun x =>
    if x.1.number ≠ n then .err
    else
      (ExecBuilder.build i.lib (fun k batch => proofFor i.H k.slot batch x.1.beacon.fork x.1.tree) x.1.beacon x.2).bind
        fun r =>
          match left.find? fun e => e.1 = n with
          | none => .err
          | some e =>
            if i.lib.trieRoot (e.2.map i.lib.receipt.enc) ≠ r.1.1.receiptsRoot then .err
            else .ok (⟨r.1, r.2, e.2⟩, left.filter fun e => e.1 ≠ n)

/-- `FullBlock::validate_block` (full_block.rs:16-28), with the new cache of summaries. -/
def validateBlock (i : Inputs Tx Rc Wd) (summaries cache : List Summary) (f : Full Tx Rc Wd) : Res (List Summary) :=
  match HeaderValidator.validate i.H i.net i.trusted cache (fun _ => some summaries) (i.lib.lib.hdr f.headerWithProof.1)
    f.headerWithProof.2 with
  | (.abort, _) => .panic
  | (.reject, _) => .err
  | (.accept, cache) =>
    if !HistoryValidator.validateBody i.lib.lib f.body f.headerWithProof.1 then .err
    else if !HistoryValidator.validateReceipts i.lib.lib f.receipts f.headerWithProof.1 then .err
    else .ok cache

/-- One round of `iter_blocks` (e2hs_builder.rs:108-120): the block, and what is left of receipts. -/
def nextBlock (i : Inputs Tx Rc Wd) (b : Builder Tx Rc Wd) (left : List (Nat × List Rc)) (n : Nat) :
    Res (Full Tx Rc Wd × List (Nat × List Rc)) :=
  if parisAt i.net n then postBlock i b left n else (preBlock i b n).map fun f => (f, left)

/-- The hash that the writer takes for the name of the file. -/
def fullHash (i : Inputs Tx Rc Wd) (f : Full Tx Rc Wd) : Id := i.lib.hash f.headerWithProof.1

/-- The loop of `build_e2hs_file` (e2hs_builder.rs:183-189) with `iter_blocks`. -/
def writeLoop (i : Inputs Tx Rc Wd) (b : Builder Tx Rc Wd) :
    List Nat → (left : List (Nat × List Rc)) → (cache : List Summary) → Writer → Res Writer
  | [], _, _, w => .ok w
  | n :: ns, left, cache, w =>
    (nextBlock i b left n).bind fun r =>
      (validateBlock i b.summaries cache r.1).bind fun cache =>
        (w.append (e2hsFormat i.codecs) (fullHash i) r.1).bind fun w => writeLoop i b ns r.2 cache w

/-- `build_e2hs_file` (e2hs_builder.rs:180-195): the bytes of the file and what makes up its name. -/
def buildFile (i : Inputs Tx Rc Wd) (b : Builder Tx Rc Wd) (index : Nat) : Res (Bytes × UInt64 × Bytes) :=
  (Writer.create (UInt64.ofNat index)).bind fun w =>
    (writeLoop i b (List.range' b.start 8192) b.receipts [] w).bind fun w => w.finish

/-- `single_generator` (single_generator/mod.rs:13-36) in a directory where the temporary file of the index exists or
not: the result, and whether it exists afterwards. `E2HSWriter::create` refuses to overwrite it, `finish` renames it
(e2hs.rs:62-143). Other errors of the file system are left out. -/
def run (i : Inputs Tx Rc Wd) (fuel index : Nat) (temp : Bool) : Option (Res (Bytes × UInt64 × Bytes) × Bool) :=
  match newBuilder i fuel index with
  | none => none
  | some .err => some (.err, temp)
  | some .panic => some (.panic, temp)
  | some (.ok b) =>
    if temp then some (.err, true)
    else
      match buildFile i b index with
      | .ok out => some (.ok out, false)
      | r => some (r, true)

end Verif.E2hsGen
