import Verif.Lemmas.Execution

/-!
# C67: Block execution and restarts

The driver of `trin-execution` executes a chain in order, and its database is always at the position it records, unless
it crashed during a commit. The `_violated` theorems show what goes wrong.
-/

namespace Verif.Props
open Verif.Execution

variable {Key Val : Type} [DecidableEq Key]

/-- The source of blocks gives the blocks of the chain in order, none twice and none left out, whatever files are
incomplete. With all files available it never fails. -/
theorem C67_blocks_in_order (chain : Nat → Block) (hnum : ∀ n, (chain n).number = n) (start : Nat)
    (fetches : List (Nat → Option (List Block))) :
    ((∀ f ∈ fetches, Honest chain f) → ∀ bs, Manager.pull fetches (Manager.new start) = some bs →
      bs = (List.range fetches.length).map fun j => chain (start + j)) ∧
    ((∀ f ∈ fetches, Available chain f) →
      Manager.pull fetches (Manager.new start) = some ((List.range fetches.length).map fun j => chain (start + j))) := by
  have shift : ∀ (n s : Nat), ((List.range (n + 1)).map fun j => chain (s + j)) =
      chain s :: (List.range n).map fun j => chain (s + 1 + j) := by
    intro n s
    rw [List.range_succ_eq_map, List.map_cons, List.map_map]
    congr 1
    apply List.map_congr_left
    intro j _
    show chain (s + (j + 1)) = _
    congr 1; omega
  constructor
  · have key : ∀ (fs : List (Nat → Option (List Block))) (m : Manager) (bs : List Block), (∀ f ∈ fs, Honest chain f) →
        m.Ok chain → m.pull fs = some bs → bs = (List.range fs.length).map fun j => chain (m.next + j) := by
      intro fs
      induction fs with
      | nil => intro m bs _ _ h; cases h; rfl
      | cons f fs ih =>
        intro m bs hh hm h
        unfold Manager.pull at h
        cases hg : m.getNext f with
        | mk ob m' =>
          rw [hg] at h
          cases ob with
          | none => cases h
          | some b =>
            simp only [Option.map_eq_some_iff] at h
            obtain ⟨bs', h1, h2⟩ := h
            obtain ⟨hb, hn, hok⟩ := getNext_some hnum (hh f List.mem_cons_self) hm hg
            have := ih m' bs' (fun f hf => hh f (List.mem_cons_of_mem _ hf)) hok h1
            rw [← h2, this, hb, hn, List.length_cons, shift]
    intro hh bs h
    exact key fetches (Manager.new start) bs hh (fun f hf => by cases hf) h
  · have key : ∀ (fs : List (Nat → Option (List Block))) (m : Manager), (∀ f ∈ fs, Available chain f) →
        m.Ready chain → m.pull fs = some ((List.range fs.length).map fun j => chain (m.next + j)) := by
      intro fs
      induction fs with
      | nil => intro m _ _; rfl
      | cons f fs ih =>
        intro m hh hm
        obtain ⟨m', hg, hn, hr⟩ := getNext_full hnum (hh f List.mem_cons_self) hm
        unfold Manager.pull
        rw [hg]
        simp only
        rw [ih m' (fun f hf => hh f (List.mem_cons_of_mem _ hf)) hr, List.length_cons, shift, hn]
        rfl
    intro hh
    exact key fetches (Manager.new start) hh (.inl ⟨rfl, rfl⟩)

/-- Part of: whenever a process stops or crashes, the database is at the position it records, the position never goes
back, and execution continues from there as if nothing had happened. What is missing: crashes during a commit
(`C67_crash_in_commit_violated`), and crashes so far from the last commit that block hashes that are still needed are
gone (`C67_block_hash_violated`): here, at most `lag` blocks are executed since the last commit when a process ends, and
blocks look at the hashes of at most `256 - lag` blocks. The last process may be ahead by any number of blocks. -/
theorem C67_resume_partial (m : Machine Key Val) (chain : Nat → Block) (world : Nat → World Key Val) (k lag : Nat)
    (hv : ValidChain m chain world) (hk : LooksBack m k) (hkl : k + lag ≤ 256) (d : Disk Key Val)
    (h : History m chain lag d) (calls : List (Nat × List Tick)) (hc : HonestCalls chain calls) :
    AtPosition m chain world d ∧ AtPosition m chain world (session m calls (restart d)) ∧
    d.next ≤ (session m calls (restart d)).next := by
  have hg := history_good hv hk hkl h
  obtain ⟨h1, e', n', h2⟩ := session_good hv hk hkl calls (restart d) hc (fun f hf => by cases hf) rfl hg
  exact ⟨hg.at', h2.at', h1⟩

/-- A call that succeeds has executed at least one block and none after the last one asked for; without a stop signal, it
has executed all of them. -/
theorem C67_done (m : Machine Key Val) (chain : Nat → Block) (world : Nat → World Key Val) (k lag : Nat)
    (hv : ValidChain m chain world) (hk : LooksBack m k) (hkl : k + lag ≤ 256) (d : Disk Key Val)
    (h : History m chain lag d) (last : Nat) (ts : List Tick) (hh : ∀ t ∈ ts, Honest chain t.fetch) (node' : Node Key Val)
    (hd : processRange m last ts (restart d) = (.done, node')) :
    d.next < node'.disk.next ∧ node'.disk.next ≤ last + 1 ∧ ((∀ t ∈ ts, t.stop = false) → node'.disk.next = last + 1) ∧
    node'.disk.world = world node'.disk.next := by
  obtain ⟨_, _, g⟩ := range_good hv hk hkl hh (fun f hf => by cases hf) rfl (history_good hv hk hkl h) hd
  obtain ⟨_, _, a3, a4, a5, a6⟩ := g rfl
  refine ⟨a3, a5, a6, ?_⟩
  have := a4.at'
  unfold AtPosition at this
  have a3' : d.next < node'.disk.next := a3
  rw [if_neg (by omega)] at this
  exact this.1

/-- With all files available, a call succeeds after as many rounds as there are blocks left. -/
theorem C67_progress (m : Machine Key Val) (chain : Nat → Block) (world : Nat → World Key Val) (k lag : Nat)
    (hv : ValidChain m chain world) (hk : LooksBack m k) (hkl : k + lag ≤ 256) (d : Disk Key Val)
    (h : History m chain lag d) (last : Nat) (hl : d.next ≤ last) (ts : List Tick) (hh : ∀ t ∈ ts, Available chain t.fetch)
    (hlen : last + 1 ≤ d.next + ts.length) : (processRange m last ts (restart d)).1 = .done := by
  unfold processRange
  rw [if_pos (show (restart d).disk.next ≤ last from hl)]
  obtain ⟨node', h1, _⟩ := loop_done hv hk hkl last ts (restart d) { pending := [] } hh (.inl ⟨rfl, rfl⟩)
    (history_good hv hk hkl h) hl hlen
  rw [h1]

/-- A stop signal ends the call with the block that is being executed, and everything so far is committed. -/
theorem C67_stop (m : Machine Key Val) (chain : Nat → Block) (world : Nat → World Key Val) (k lag : Nat)
    (hv : ValidChain m chain world) (hk : LooksBack m k) (hkl : k + lag ≤ 256) (d : Disk Key Val)
    (h : History m chain lag d) (last : Nat) (pre post : List Tick) (t : Tick) (hl : d.next + pre.length ≤ last)
    (hpre : ∀ t ∈ pre, Available chain t.fetch ∧ t.stop = false) (ht : Available chain t.fetch) (hs : t.stop = true) :
    ∃ node', processRange m last (pre ++ t :: post) (restart d) = (.done, node') ∧
      node'.disk.next = d.next + pre.length + 1 := by
  unfold processRange
  rw [if_pos (show (restart d).disk.next ≤ last from Nat.le_trans (Nat.le_add_right _ _) hl)]
  exact loop_stop hv hk hkl last t post ht hs pre (restart d) { pending := [] } hpre (.inl ⟨rfl, rfl⟩)
    (history_good hv hk hkl h) hl

/-- Whatever the files contain and whatever happened before: a call that succeeds leaves a state with the recorded state
root. -/
theorem C67_root_checked (m : Machine Key Val) (last : Nat) (ts : List Tick) (node node' : Node Key Val)
    (h : processRange m last ts node = (.done, node')) : m.root node'.disk.world = node'.disk.root := by
  unfold processRange at h
  split at h
  · exact loop_root last ts node _ node' h
  · cases h

/-- A block that uses other gas than its header says is refused, and so is one that cannot be executed: nothing changes. -/
theorem C67_refused (m : Machine Key Val) (last : Nat) (t : Tick) (ts : List Tick) (node node' : Node Key Val) (b : Block)
    (e : Executor Key Val) (manager : Manager) (hb : node.manager.getNext t.fetch = (some b, manager)) (h0 : b.number ≠ 0)
    (h : ∀ changes, m.exec (node.disk.world.writes e.pending) node.disk.hashes b ≠ some (changes, b.gasUsed)) (o : Outcome)
    (hp : processLoop m last (t :: ts) node e = (o, node')) : o = .failed ∧ node'.disk = node.disk := by
  unfold processLoop at hp
  rw [hb] at hp
  simp only at hp
  have : executeBlock m node.disk e b = none := by
    unfold executeBlock
    rw [if_neg h0]
    cases hx : m.exec (node.disk.world.writes e.pending) node.disk.hashes b with
    | none => rfl
    | some r =>
      obtain ⟨changes, gas⟩ := r
      simp only
      by_cases hg : gas = b.gasUsed
      · exact absurd (hg ▸ hx) (h changes)
      · rw [if_neg hg]
  rw [this] at hp
  cases hp
  exact ⟨rfl, rfl⟩

/-! ## A chain of payments, and what goes wrong -/

namespace ExecutionExample

/-- Each block adds its body to the one value of the state. -/
def adder : Machine Nat Nat :=
  { exec := fun w _ b => if b.body = 99 then none else some ([(0, some ((w 0).getD 0 + b.body))], 0)
    root := fun w => (w 0).getD 0
    alloc := [(0, some 10)] }

def chain (n : Nat) : Block := { number := n, hash := 1000 + n, stateRoot := 10 + n, gasUsed := 0, body := 1 }

def world (n : Nat) : World Nat Nat := fun k => if n = 0 then none else if k = 0 then some (9 + n) else none

theorem valid : ValidChain adder chain world where
  number _ := rfl
  start := by funext k; rfl
  genesis := by
    funext k
    by_cases hk : k = 0 <;> simp [world, World.writes, World.write, adder, hk]
  exec n hn := by
    have hw : world n 0 = some (9 + n) := by
      have : ¬ n = 0 := by omega
      simp [world, this]
    refine ⟨[(0, some (9 + n + 1))], by simp [adder, chain, hw], ?_⟩
    funext k
    have : ¬ n = 0 := by omega
    by_cases hk : k = 0
    · simp [world, World.writes, World.write, hk]; omega
    · simp [world, World.writes, World.write, hk]
  root n := by simp [adder, world, chain]; omega

theorem noHashes : LooksBack adder 0 := fun _ _ _ _ _ => rfl

/-- A file with the first blocks only; no other files. -/
def fetch (c : Nat → Block) (len i : Nat) : Option (List Block) :=
  if i = 0 then some ((List.range len).map c) else none

theorem fetch_honest (c : Nat → Block) (len : Nat) (hl : len ≤ 8192) : Honest c (fetch c len) := by
  intro i bs h
  unfold fetch at h
  split at h
  · cases h
    refine ⟨len, hl, ?_⟩
    apply List.map_congr_left
    intro j _
    congr 1
    simp [*]
  · cases h

def tick (stop limits : Bool) : Tick := { fetch := fetch chain 20, stop, limits }

/-- Blocks 0 to 7 with an early commit after block 2, stopped after block 4; then a crash after block 7; then on to 9. -/
def first : List (Nat × List Tick) := [(7, [tick false false, tick false false, tick false true, tick false false, tick true false])]
def second : List (Nat × List Tick) := [(9, [tick false false, tick false false, tick false false])]
def third : List (Nat × List Tick) := [(9, List.replicate 10 (tick false false)), (12, List.replicate 3 (tick false true))]

theorem honest (calls : List (Nat × List Tick)) (h : ∀ c ∈ calls, ∀ t ∈ c.2, t.fetch = fetch chain 20) : HonestCalls chain calls := by
  intro c hc t ht
  rw [h c hc t ht]
  exact fetch_honest chain 20 (by decide)

/-- The hypotheses of `C67_resume_partial` hold for this history, with a crash three blocks after the last commit. -/
example : History adder chain 3 (session adder second (restart (session adder first (restart (Disk.fresh 0))))) := by
  have hash : ∀ i, 8 ≤ i → (session adder second (restart (session adder first (restart (Disk.fresh 0))))).hashes i = none := by
    intro i hi
    show serveHash (serveHash (serveHash (serveHash (serveHash (serveHash (serveHash (fun _ => none) (chain 1)) (chain 2)) (chain 3))
      (chain 4)) (chain 5)) (chain 6)) (chain 7) i = none
    simp [serveHash, chain, serveWindow, show ¬ i = 1 by omega, show ¬ i = 2 by omega, show ¬ i = 3 by omega,
      show ¬ i = 4 by omega, show ¬ i = 5 by omega, show ¬ i = 6 by omega, show ¬ i = 7 by omega]
  have hash1 : ∀ i, 8 ≤ i → (session adder first (restart (Disk.fresh 0))).hashes i = none := by
    intro i hi
    show serveHash (serveHash (serveHash (serveHash (fun _ => none) (chain 1)) (chain 2)) (chain 3)) (chain 4) i = none
    simp [serveHash, chain, serveWindow, show ¬ i = 1 by omega, show ¬ i = 2 by omega, show ¬ i = 3 by omega,
      show ¬ i = 4 by omega, show ¬ i = 5 by omega, show ¬ i = 6 by omega, show ¬ i = 7 by omega]
  refine .process _ second (.process _ first (.fresh 0) ?_ ?_) ?_ ?_
  · exact honest _ (by simp [first, second, tick])
  · intro i hi; exact hash1 i hi
  · exact honest _ (by simp [first, second, tick])
  · intro i hi; exact hash i hi

example : (session adder first (restart (Disk.fresh 0))).next = 5 ∧
    (sessions adder (Disk.fresh 0) [first, second]).next = 5 ∧ (sessions adder (Disk.fresh 0) [first, second]).world 0 = some 14 ∧
    (sessions adder (Disk.fresh 0) [first, second]).hashes 7 = some 1007 ∧
    (sessions adder (Disk.fresh 0) [first, second, third]).next = 13 ∧
    (sessions adder (Disk.fresh 0) [first, second, third]).world 0 = some 22 := by decide +kernel

/-- All files can be available, so `C67_progress` applies; here it takes block 0 to 4 over two early commits. -/
example : (processRange adder 4 (List.replicate 5 { fetch := fun i => some ((List.range perFile).map fun j => chain (i * perFile + j)), stop := false, limits := true })
    (restart (Disk.fresh 0))).1 = .done :=
  C67_progress adder chain world 0 0 valid noHashes (by omega) _ (.fresh 0) 4 (Nat.zero_le _) _
    (fun t ht i => by rw [List.eq_of_mem_replicate ht]) (by simp)

/-- The database after genesis. -/
def started : Disk Nat Nat := session adder [(0, [tick false false])] (restart (Disk.fresh 0))

end ExecutionExample

open ExecutionExample

/-- A crash during a commit leaves the database ahead of its position: block 1 is executed again, on a state that has some
of its changes, and fails from then on. -/
theorem C67_crash_in_commit_violated :
    ∃ (d : Disk Nat Nat) (d' : Disk Nat Nat) (e : Executor Nat Nat) (t : Tick),
      ValidChain adder chain world ∧ LooksBack adder 0 ∧ History adder chain 0 d ∧
      executeBlock adder d { pending := [] } (chain d.next) = some (d', e) ∧
      ¬ AtPosition adder chain world (crashInCommit d' e 1) ∧
      Honest chain t.fetch ∧ (processNext adder [t] (restart (crashInCommit d' e 1))).1 = .failed := by
  refine ⟨started, { started with hashes := serveHash started.hashes (chain 1) }, { pending := [(0, some 11)] }, tick false false,
    valid, noHashes, ?_, rfl, ?_, fetch_honest chain 20 (by decide), by decide +kernel⟩
  · refine .process _ _ (.fresh 0) (honest _ (by simp [tick])) ?_
    intro i _
    rfl
  · intro h
    unfold AtPosition at h
    have hn : (crashInCommit { started with hashes := serveHash started.hashes (chain 1) } { pending := [(0, some 11)] } 1).next = 1 := rfl
    rw [if_neg (by rw [hn]; omega)] at h
    have := congrFun h.1 0
    rw [hn] at this
    exact absurd this (by decide +kernel)

/-- A block with a wrong state root is noticed only after its changes are in the database. The database is no longer at
its position, and the right block fails too. -/
theorem C67_bad_block_violated :
    ∃ (bad : Tick) (good : Tick), ValidChain adder chain world ∧ History adder chain 0 started ∧ Honest chain good.fetch ∧
      (processNext adder [good] (restart started)).1 = .done ∧
      (processNext adder [bad] (restart started)).1 = .failed ∧
      ¬ AtPosition adder chain world (processNext adder [bad] (restart started)).2.disk ∧
      (processNext adder [good] (restart (processNext adder [bad] (restart started)).2.disk)).1 = .failed := by
  refine ⟨{ fetch := fetch (fun n => { chain n with stateRoot := 0 }) 20, stop := false, limits := false }, tick false false,
    valid, ?_, fetch_honest chain 20 (by decide), by decide +kernel, by decide +kernel, ?_, by decide +kernel⟩
  · refine .process _ _ (.fresh 0) (honest _ (by simp [tick])) ?_
    intro i _
    rfl
  · intro h
    unfold AtPosition at h
    rw [if_neg (by decide +kernel)] at h
    have := congrFun h.1 0
    exact absurd this (by decide +kernel)

/-- After a block that could not be executed, the same process does not try that block again: the next call executes the
block after it, and not even that one only. -/
theorem C67_retry_violated :
    ∃ (bad : Tick) (good : Tick), Honest chain good.fetch ∧
      (processNext adder [bad] (restart started)).1 = .failed ∧
      (processNext adder [bad] (restart started)).2.disk.next = 1 ∧
      (processNext adder [good, good] (processNext adder [bad] (restart started)).2).1 = .interrupted ∧
      (processNext adder [good, good] (processNext adder [bad] (restart started)).2).2.disk.hashes 1 = none ∧
      (processNext adder [good, good] (processNext adder [bad] (restart started)).2).2.disk.hashes 2 = some 1002 ∧
      (processNext adder [good, good] (processNext adder [bad] (restart started)).2).2.disk.hashes 3 = some 1003 := by
  refine ⟨{ fetch := fetch (fun n => if n = 1 then { chain n with body := 99 } else chain n) 20, stop := false, limits := false },
    tick false false, fetch_honest chain 20 (by decide), by decide +kernel, by decide +kernel, by decide +kernel,
    by decide +kernel, by decide +kernel, by decide +kernel⟩

/-- After a download that failed, the same process gets no more blocks, even when all files are available. -/
theorem C67_download_violated (start : Nat) (fetch : Nat → Option (List Block)) (hf : fetch (start / 8192) = none)
    (later : List (Nat → Option (List Block))) (hl : later ≠ []) :
    Manager.pull later ((Manager.new start).getNext fetch).2 = none := by
  have e : (Manager.new start).getNext fetch = (none, { Manager.new start with handle := none }) := by
    simp [Manager.getNext, Manager.refill, Manager.nextFile, Manager.new, perFile, hf]
  rw [e]
  cases later with
  | nil => exact absurd rfl hl
  | cons g gs => rfl

namespace ExecutionExample

/-- Each block stores the hash of the block 256 before it. -/
def hashing : Machine Nat Nat :=
  { exec := fun _ h b => some ([(0, some ((if b.number < 256 then none else h (b.number - 256)).getD 0))], 0)
    root := fun w => (w 0).getD 0
    alloc := [(0, some 0)] }

def past (n : Nat) : Nat := if n ≤ 256 then 0 else 744 + n

def hashChain (n : Nat) : Block := { number := n, hash := 1000 + n, stateRoot := past n, gasUsed := 0, body := 0 }

def hashWorld (n : Nat) : World Nat Nat := fun k => if n = 0 then none else if k = 0 then some (past (n - 1)) else none

theorem hashValid : ValidChain hashing hashChain hashWorld where
  number _ := rfl
  start := by funext k; rfl
  genesis := by
    funext k
    by_cases hk : k = 0 <;> simp [hashWorld, World.writes, World.write, hashing, hk, past]
  exec n hn := by
    refine ⟨[(0, some (past n))], ?_, ?_⟩
    · have : ((if n < 256 then none else known hashChain (n - 256)).getD 0) = past n := by
        unfold known past hashChain
        by_cases h1 : n < 256
        · rw [if_pos h1, if_pos (by omega)]; rfl
        · rw [if_neg h1]
          by_cases h2 : n = 256
          · rw [if_pos (by omega), if_pos (by omega)]; rfl
          · rw [if_neg (by omega), if_neg (by omega)]
            show 1000 + (n - 256) = 744 + n
            omega
      simp only [hashing, hashChain] at this ⊢
      rw [this]
    · funext k
      have : ¬ n = 0 := by omega
      by_cases hk : k = 0
      · simp [hashWorld, World.writes, World.write, hk]
      · simp [hashWorld, World.writes, World.write, hk]
  root n := by simp [hashing, hashWorld, hashChain]

theorem looks256 : LooksBack hashing 256 := by
  intro w h h' b hh
  have : (if b.number < 256 then none else h (b.number - 256)) = (if b.number < 256 then none else h' (b.number - 256)) := by
    by_cases hb : b.number < 256
    · rw [if_pos hb, if_pos hb]
    · rw [if_neg hb, if_neg hb]
      exact hh _ (by omega) (by omega)
  simp only [hashing]
  rw [this]

def hashTick : Tick := { fetch := fetch hashChain 300, stop := false, limits := false }

/-- Blocks 0 to 256 are executed and committed; then block 257 is executed and the process crashes. -/
def crashed : Disk Nat Nat :=
  sessions hashing (Disk.fresh 0) [[(256, List.replicate 257 hashTick)], [(299, [hashTick])]]

end ExecutionExample

/-- Hashes of old blocks are deleted when a block is executed, not when it is committed. After a crash the database is at
its position, but block 257 can no longer be executed: it needs the hash of block 1. -/
theorem C67_block_hash_violated :
    ValidChain hashing hashChain hashWorld ∧ LooksBack hashing 256 ∧ Honest hashChain hashTick.fetch ∧
    crashed.next = 257 ∧ crashed.world 0 = hashWorld 257 0 ∧ crashed.hashes 1 = none ∧
    (processNext hashing [hashTick] (restart crashed)).1 = .failed := by
  refine ⟨hashValid, looks256, fetch_honest _ 300 (by decide), ?_⟩
  decide +kernel

end Verif.Props
