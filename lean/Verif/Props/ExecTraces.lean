import Verif.Lemmas.ExecTraces
import Verif.Props.Execution

/-!
# C111: The command `trin-execution` and the traces it writes

Exactly the transactions that were asked for are traced, and tracing changes nothing else.
-/

namespace Verif.Props
open Verif.Execution Verif.ExecTraces Verif.Props.ExecTracesSpec
open Verif.DataDir (Path Fs)
open Verif.Props.BridgeSpec (Numeral)

variable {Key Val : Type} [DecidableEq Key]

/-- A text is taken as a choice of blocks to trace exactly if it is `none`, `all` or `block:` with a number of 64 bits. -/
theorem C111_argument (text : List Char) (choice : ToTrace) : ToTrace.parse text = some choice ↔ Text text choice :=
  parse_iff text choice

example : ToTrace.parse "block:1920000".toList = some (.block 1920000) ∧ ToTrace.parse "block:+7".toList = some (.block 7) ∧
    ToTrace.parse "block: 7".toList = none ∧ ToTrace.parse "block:".toList = none ∧ ToTrace.parse "7".toList = none ∧
    ToTrace.parse "All".toList = none ∧ ToTrace.parse "block:18446744073709551616".toList = none := by decide +kernel

/-- Whatever is traced, and whatever happens to the files of traces: blocks are executed and committed as without traces. -/
theorem C111_same_run (m : Machine Key Val) (txs : Block → List Bytes) (choice : ToTrace) (root : Path) (last : Nat)
    (rs : List Round) (node : Node Key Val) (fs : Fs) :
    (ExecTraces.processRange m txs choice root last rs node fs).1 = Execution.processRange m last (rs.map (·.tick)) node := by
  unfold ExecTraces.processRange Execution.processRange
  split
  · exact loop_same m txs choice root last rs node _ fs
  · rfl

/-- However a run ends, the only files that are made or changed are traces that were asked for, of transactions of the blocks
from the position of the database to the last one, in the data directory; and the only directories are those for them. -/
theorem C111_only (m : Machine Key Val) (txs : Block → List Bytes) (choice : ToTrace) (root : Path) (last : Nat)
    (chain : Nat → Block) (hnum : ∀ n, (chain n).number = n) (rs : List Round) (hh : HonestRounds chain rs) (d : Disk Key Val)
    (fs : Fs) :
    OnlyTraces chain txs choice root d.next last rs fs (ExecTraces.processRange m txs choice root last rs (restart d) fs).2 := by
  unfold ExecTraces.processRange
  split
  · rename_i hl
    have := loop_ch m txs choice root last hnum rs (restart d) { pending := [] } fs hh (fun f hf => by cases hf) hl
    intro p
    rcases this p with h | ⟨t, ⟨n, hash, r, h1, h2, h3, h4, h5, h6, h7, h8, h9⟩, h10⟩ | ⟨h1, h2, n, h3, h4, h5, h6, h7, h8⟩
    · exact .inl h
    · exact .inr (.inl ⟨n, hash, r, h1, h2, h3, h4, h5, h6, h7, by rw [h8, txFile_eq], by rw [h10, h9]⟩)
    · exact .inr (.inr ⟨h1, h2, n, h3, h4, h5, h6, h7, by rw [← blockDir_eq]; exact h8⟩)
  · intro p; exact .inl rfl

/-- When a run succeeds, there is a trace of every transaction that was asked for, with what its tracer wrote in the round
that executed the block, if the file system allowed to make it. -/
theorem C111_all (m : Machine Key Val) (txs : Block → List Bytes) (choice : ToTrace) (root : Path) (last : Nat)
    (chain : Nat → Block) (hnum : ∀ n, (chain n).number = n) (rs : List Round) (hh : HonestRounds chain rs) (d : Disk Key Val)
    (fs fs' : Fs) (hc : Clear root fs) (node' : Node Key Val)
    (h : ExecTraces.processRange m txs choice root last rs (restart d) fs = ((.done, node'), fs'))
    (n : Nat) (hash : Bytes) (h1 : d.next ≤ n) (h2 : n < node'.disk.next) (h0 : n ≠ 0) (ha : Asks choice n)
    (hm : hash ∈ txs (chain n)) :
    ∃ r, rs[n - d.next]? = some r ∧ (r.fault hash = .none → fs' (traceFile root n hash) = some (.file (r.output hash))) := by
  unfold ExecTraces.processRange at h
  split at h
  · rename_i hl
    obtain ⟨r, h3, h4⟩ := loop_made m txs choice root last hnum rs (restart d) node' _ fs fs' hh (fun f hf => by cases hf) hl hc h
      n hash h1 h2 h0 ha hm
    exact ⟨r, h3, by rw [← txFile_eq]; exact h4⟩
  · cases h

/-- The trace of a transaction whose file could not be made is left as it was. -/
theorem C111_fault (m : Machine Key Val) (txs : Block → List Bytes) (choice : ToTrace) (root : Path) (last : Nat)
    (chain : Nat → Block) (hnum : ∀ n, (chain n).number = n) (rs : List Round) (hh : HonestRounds chain rs) (d : Disk Key Val)
    (fs : Fs) (n : Nat) (hash : Bytes) (h1 : d.next ≤ n) (r : Round) (hr : rs[n - d.next]? = some r) (hf : r.fault hash ≠ .none) :
    (ExecTraces.processRange m txs choice root last rs (restart d) fs).2 (traceFile root n hash) = fs (traceFile root n hash) := by
  rcases C111_only m txs choice root last chain hnum rs hh d fs (traceFile root n hash) with
    h | ⟨n', hash', r', _, _, _, _, _, h6, h7, h8, _⟩ | ⟨_, _, n', _, _, _, _, _, h8⟩
  · exact h
  · rw [← txFile_eq, ← txFile_eq] at h8
    obtain ⟨rfl, rfl⟩ := txFile_inj h8
    rw [hr] at h6
    cases h6
    exact absurd h7 hf
  · rw [← txFile_eq, ← blockDir_eq] at h8
    exact absurd h8 not_prefix

/-- A run that was not asked for traces does not touch the files, whatever blocks it is given. -/
theorem C111_none (m : Machine Key Val) (txs : Block → List Bytes) (root : Path) (last : Nat) (rs : List Round)
    (node : Node Key Val) (fs : Fs) : (ExecTraces.processRange m txs .none root last rs node fs).2 = fs := by
  have tx : ∀ (number : Nat) (r : Round) (hs : List Bytes) (fs : Fs), traceBlock .none root number r hs fs = fs := by
    intro number r hs fs
    unfold traceBlock
    split
    · rfl
    · induction hs generalizing fs with
      | nil => rfl
      | cons h hs ih => rw [List.foldl_cons]; exact ih fs
  have loop : ∀ (rs : List Round) (node : Node Key Val) (e : Executor Key Val),
      (ExecTraces.processLoop m txs .none root last rs node e fs).2 = fs := by
    intro rs
    induction rs with
    | nil => intro node e; rfl
    | cons r rs ih =>
      intro node e
      unfold ExecTraces.processLoop
      simp only [tx]
      split
      · rfl
      · split
        · rfl
        · split
          · split <;> rfl
          · split
            · split
              · exact ih _ _
              · rfl
            · exact ih _ _
  unfold ExecTraces.processRange
  split
  · exact loop rs node _
  · rfl

/-! ## The command -/

theorem ExecTracesSpec.flags_iff (f : Flags) (last : Nat) (choice : ToTrace) :
    Understood f last choice ↔ ∃ l, parseFlags f = some (l, choice) ∧ l.getD latestBlock = last := by
  have hc : (f.blockToTrace = none ∧ choice = .none ∨ ∃ t, f.blockToTrace = some t ∧ Text t choice) ↔
      ToTrace.parse (f.blockToTrace.getD "none".toList) = some choice := by
    cases hb : f.blockToTrace with
    | none =>
      have : ToTrace.parse "none".toList = some .none := by decide +kernel
      simp only [Option.getD_none, this, true_and, reduceCtorEq, false_and, exists_false, or_false, Option.some.injEq]
      exact eq_comm
    | some t => simp only [reduceCtorEq, false_and, false_or, Option.some.injEq, exists_eq_left', Option.getD_some, parse_iff]
  unfold Understood
  rw [hc]
  unfold parseFlags
  cases hp : ToTrace.parse (f.blockToTrace.getD "none".toList) with
  | none => cases f.lastBlock <;> simp
  | some c =>
    cases hl : f.lastBlock with
    | none =>
      simp only [true_and, reduceCtorEq, false_and, exists_false, or_false, Option.some.injEq, Prod.mk.injEq]
      constructor
      · rintro ⟨rfl, rfl⟩; exact ⟨none, ⟨rfl, rfl⟩, rfl⟩
      · rintro ⟨l, ⟨rfl, rfl⟩, h⟩; exact ⟨h.symm, rfl⟩
    | some t =>
      simp only [reduceCtorEq, false_and, false_or, Option.some.injEq, exists_eq_left', Option.map_eq_some_iff, Prod.mk.injEq,
        ← Verif.BridgeCli.parseU64_iff]
      constructor
      · rintro ⟨h, rfl⟩; exact ⟨some last, ⟨last, h, rfl, rfl⟩, rfl⟩
      · rintro ⟨l, ⟨n, h, rfl, rfl⟩, rfl⟩; exact ⟨h, rfl⟩

section
variable (env : Env Key Val) (m : Machine Key Val) (txs : Block → List Bytes) (disks : Path → Disk Key Val) (rs : List Round)
  (f : Flags) (fs : Fs)

/-- Arguments are refused exactly if one of them is not understood; then nothing is done. -/
theorem C111_usage : main env m txs disks rs f fs = .usage ↔ ¬ ∃ last choice, Understood f last choice := by
  unfold main
  cases hp : parseFlags f with
  | none =>
    simp only [true_iff]
    rintro ⟨last, choice, h⟩
    obtain ⟨l, h, _⟩ := (ExecTracesSpec.flags_iff f last choice).1 h
    rw [hp] at h; cases h
  | some p =>
    obtain ⟨l, c⟩ := p
    have : ∃ last choice, Understood f last choice := ⟨_, c, (ExecTracesSpec.flags_iff f _ c).2 ⟨l, hp, rfl⟩⟩
    simp only [this, not_true_eq_false, iff_false]
    split
    · nofun
    · split
      · nofun
      · split
        · nofun
        · nofun
        · split <;> nofun

/-- Without a subcommand, blocks are executed on the database of the data directory, from its position to the last block that
is given, or to block 20868946; the command succeeds exactly if this does. -/
theorem C111_command (last : Nat) (choice : ToTrace) (hu : Understood f last choice) (hm : ∀ a ∈ f.metrics, env.serves a = true)
    (dir : Path) (hd : env.setup f.dataDir f.ephemeral = some dir) (hc : f.command = none) :
    main env m txs disks rs f fs = ending dir (Execution.processRange m last (rs.map (·.tick)) (restart (disks dir)))
      (ExecTraces.processRange m txs choice dir last rs (restart (disks dir)) fs).2 := by
  obtain ⟨l, hl, rfl⟩ := (ExecTracesSpec.flags_iff f last choice).1 hu
  have hm' : ¬ f.metrics.any (fun a => !env.serves a) = true := by
    cases hx : f.metrics with
    | none => simp
    | some a => simp [hm a hx]
  unfold main
  rw [hl]
  simp only
  rw [if_neg hm', hd, hc]
  simp only
  rw [← C111_same_run m txs choice dir (l.getD latestBlock) rs (restart (disks dir)) fs]
  cases ho : (ExecTraces.processRange m txs choice dir (l.getD latestBlock) rs (restart (disks dir)) fs).1.1 <;> simp [ending, ho]

/-- A database that is past the last block makes the command fail, and is left as it is, as are the files. -/
theorem C111_past (last : Nat) (choice : ToTrace) (hu : Understood f last choice) (hm : ∀ a ∈ f.metrics, env.serves a = true)
    (dir : Path) (hd : env.setup f.dataDir f.ephemeral = some dir) (hc : f.command = none) (hp : last < (disks dir).next) :
    main env m txs disks rs f fs = .ended dir false (disks dir) fs := by
  rw [C111_command env m txs disks rs f fs last choice hu hm dir hd hc]
  have hn : ¬ (restart (disks dir)).disk.next ≤ last := by show ¬ (disks dir).next ≤ last; omega
  unfold Execution.processRange ExecTraces.processRange
  rw [if_neg hn, if_neg hn]
  rfl

/-- With a subcommand a state is imported or exported and nothing else is done: no block is executed and no file of traces is
made, whatever the other flags say. -/
theorem C111_subcommand (hu : ∃ last choice, Understood f last choice) (hm : ∀ a ∈ f.metrics, env.serves a = true) (dir : Path)
    (hd : env.setup f.dataDir f.ephemeral = some dir) :
    (∀ p, f.command = some (.importState p) →
      main env m txs disks rs f fs = .ended dir (env.importState p (disks dir)).1 (env.importState p (disks dir)).2 fs) ∧
    (∀ p, f.command = some (.exportState p) →
      main env m txs disks rs f fs = .ended dir (env.exportState p (disks dir)) (disks dir) fs) := by
  obtain ⟨last, choice, hu⟩ := hu
  obtain ⟨l, hl, rfl⟩ := (ExecTracesSpec.flags_iff f last choice).1 hu
  have hm' : ¬ f.metrics.any (fun a => !env.serves a) = true := by
    cases hx : f.metrics with
    | none => simp
    | some a => simp [hm a hx]
  constructor <;> intro p hc
  · unfold main
    rw [hl]
    simp only
    rw [if_neg hm', hd, hc]
  · unfold main
    rw [hl]
    simp only
    rw [if_neg hm', hd, hc]

/-- The command gives up before it looks at a database exactly if metrics cannot be served or there is no data directory. -/
theorem C111_early (hu : ∃ last choice, Understood f last choice) :
    main env m txs disks rs f fs = .early ↔
      (∃ a ∈ f.metrics, env.serves a = false) ∨ env.setup f.dataDir f.ephemeral = none := by
  obtain ⟨last, choice, hu⟩ := hu
  obtain ⟨l, hl, rfl⟩ := (ExecTracesSpec.flags_iff f last choice).1 hu
  have hm : f.metrics.any (fun a => !env.serves a) = true ↔ ∃ a ∈ f.metrics, env.serves a = false := by
    cases hx : f.metrics with
    | none => simp
    | some a => simp
  unfold main
  rw [hl]
  simp only
  by_cases h1 : f.metrics.any (fun a => !env.serves a) = true
  · rw [if_pos h1]; exact iff_of_true rfl (.inl (hm.1 h1))
  · rw [if_neg h1]
    have h2 := fun h => h1 (hm.2 h)
    cases hd : env.setup f.dataDir f.ephemeral with
    | none => simp
    | some dir =>
      refine iff_of_false ?_ ?_
      · simp only
        split
        · nofun
        · nofun
        · split <;> nofun
      · rintro (h | h)
        · exact h2 h
        · cases h

end

/-! ## An example: blocks 0 to 4 of a chain of payments, with a transaction each -/

namespace ExecTracesExample
open ExecutionExample (adder chain tick fetch fetch_honest)

def txs (b : Block) : List Bytes := [[UInt8.ofNat b.number]]

def round (fault : Fault) : Round :=
  { tick := tick false false, fault := fun _ => fault, output := fun h => if h = [3] then "three".toList else "other".toList, begun := 0 }

def rounds : List Round := [round .none, round .none, round .file, round .none, round .none]

def empty : Fs := fun _ => none

def root : Path := ["data".toList]

def env : Env Nat Nat :=
  { serves := fun _ => true, setup := fun d _ => d, importState := fun _ d => (true, d), exportState := fun _ _ => true }

def flags (trace : String) : Flags :=
  { dataDir := some root, ephemeral := false, lastBlock := some "4".toList, blockToTrace := some trace.toList, metrics := none, command := none }

def file (n h : String) : Path := ["data".toList, "evm_traces".toList, n.toList, h.toList]

theorem honest : HonestRounds chain rounds := by
  intro r hr
  have : r.tick.fetch = fetch chain 20 := by
    simp only [rounds, List.mem_cons, List.not_mem_nil, or_false] at hr
    rcases hr with rfl | rfl | rfl | rfl | rfl <;> rfl
  rw [this]
  exact fetch_honest chain 20 (by decide)

theorem clear : Clear root empty := by
  refine ⟨fun n q text _ h => ?_, fun n hash h => ?_⟩ <;> simp [empty] at h

/-- The run succeeds; all transactions after genesis are traced but the one whose file could not be made. -/
example : (ExecTraces.processRange adder txs .all root 4 rounds (restart (Disk.fresh 0)) empty).1.1 = .done ∧
    (ExecTraces.processRange adder txs .all root 4 rounds (restart (Disk.fresh 0)) empty).2 (file "block_3" "tx_0x03.json") =
      some (.file "three".toList) ∧
    (ExecTraces.processRange adder txs .all root 4 rounds (restart (Disk.fresh 0)) empty).2 (file "block_2" "tx_0x02.json") = none ∧
    (ExecTraces.processRange adder txs .all root 4 rounds (restart (Disk.fresh 0)) empty).2 (file "block_0" "tx_0x00.json") = none ∧
    (ExecTraces.processRange adder txs (.block 3) root 4 rounds (restart (Disk.fresh 0)) empty).2 (file "block_3" "tx_0x03.json") =
      some (.file "three".toList) ∧
    (ExecTraces.processRange adder txs (.block 3) root 4 rounds (restart (Disk.fresh 0)) empty).2 (file "block_4" "tx_0x04.json") =
      none := by decide +kernel

/-- The hypotheses of `C111_all` hold of this run. -/
example : ∃ r, rounds[3]? = some r ∧ (r.fault [3] = .none →
    (ExecTraces.processRange adder txs .all root 4 rounds (restart (Disk.fresh 0)) empty).2 (traceFile root 3 [3]) =
      some (.file (r.output [3]))) :=
  C111_all adder txs .all root 4 chain (fun _ => rfl) rounds honest (Disk.fresh 0) empty _ clear
    (ExecTraces.processRange adder txs .all root 4 rounds (restart (Disk.fresh 0)) empty).1.2
    (Prod.ext (Prod.ext (by decide +kernel) rfl) rfl) 3 [3] (Nat.zero_le _) (by decide +kernel) (by decide) (.inl rfl)
    (by decide +kernel)

/-- A command that runs to block 4. -/
example : (match main env adder txs (fun _ => Disk.fresh 0) rounds (flags "block:3") empty with
    | .ended dir ok disk fs => decide (dir = root ∧ ok = true ∧ disk.next = 5 ∧
      fs (file "block_3" "tx_0x03.json") = some (.file "three".toList) ∧ fs (file "block_1" "tx_0x01.json") = none)
    | _ => false) = true := by decide +kernel

example : Understood (flags "block:3") 4 (.block 3) :=
  (ExecTracesSpec.flags_iff _ _ _).2 ⟨some 4, by decide +kernel, rfl⟩

example : ¬ ∃ last choice, Understood (flags "3") last choice := by
  rintro ⟨last, choice, h⟩
  obtain ⟨l, h, _⟩ := (ExecTracesSpec.flags_iff _ _ _).1 h
  have : parseFlags (flags "3") = none := by decide +kernel
  rw [this] at h; cases h

end ExecTracesExample

end Verif.Props
