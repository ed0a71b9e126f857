import Verif.Lemmas.DataDir

/-! # C79: a node keeps its identity

`Sys` is the environment: the temporary and default directories, which byte strings are private keys, and the node id of a
key. A history is a list of events: starts with options, steps of the started processes in any order, and processes stopped
by a file system error or from outside, possibly in the middle of writing the key file. -/

namespace Verif.Props
open Verif Verif.DataDir Identity

/-- **C79 (a key file stays).** Once the key file of a data directory exists and no process is about to make or fill it, no
start, step, error or crash ever changes it, and every later start in that directory without a private key that succeeds
runs with the key in the file. -/
theorem C79_stable (sys : Sys) (s : State) (d : Path) (node : Node)
    (hfile : s.fs (d ++ ["unsafe_private_key.hex".toList]) = some node) (hquiet : ∀ p ∈ s.procs, ¬ Writes p d) (es : List Event) :
    (run sys s es).fs (d ++ ["unsafe_private_key.hex".toList]) = some node ∧
    ∀ i k, s.procs.length ≤ i → Runs (run sys s es) i d k → Holds sys s.fs d k := by
  have h := kept_run sys d node s.procs.length es s (Nat.le_refl _) ⟨hfile, hquiet, by
    intro i p hi hp
    rw [List.getElem?_eq_none hi] at hp; cases hp⟩
  refine ⟨h.file, ?_⟩
  rintro i k hi ⟨p, n, hp, ho, hph⟩
  obtain ⟨c, hn, hc⟩ := h.keys i p hi hp ho k (.inr ⟨n, hph⟩)
  exact holds_iff.mpr ⟨c, hn ▸ hfile, hc⟩

/-- **C79 (one identity per directory).** When the starts come one after another and none is stopped while it fills the key
file, all processes without a private key that run in a data directory have the key that its file holds: the same one.
Missing: starts at once and starts that are stopped, see `C79_race_violated` and `C79_crash_violated`. -/
theorem C79_identity_partial (sys : Sys) (fs : Fs) (es : List Event) (ho : Orderly sys ⟨fs, []⟩ es) (i : Nat) (d : Path) (k : Bytes)
    (hi : Runs (run sys ⟨fs, []⟩ es) i d k) :
    Holds sys (run sys ⟨fs, []⟩ es).fs d k ∧ ∀ j k', Runs (run sys ⟨fs, []⟩ es) j d k' → k' = k := by
  have h := tidy_run sys es _ (tidy_init sys fs) ho
  obtain ⟨p, n, hp, hn, hph⟩ := hi
  obtain ⟨c, h1, h2⟩ := h.keys p (List.mem_of_getElem? hp) hn d k (.inr ⟨n, hph⟩)
  refine ⟨holds_iff.mpr ⟨c, h1, h2⟩, ?_⟩
  rintro j k' ⟨p', n', hp', hn', hph'⟩
  obtain ⟨c', h1', h2'⟩ := h.keys p' (List.mem_of_getElem? hp') hn' d k' (.inr ⟨n', hph'⟩)
  rw [h1] at h1'
  cases h1'
  rw [h2] at h2'
  exact (Option.some.inj h2').symm

/-- **C79 (directories).** Whatever happens, a process that runs has the data directory that its options ask for — never
when both the flag and the environment variable are given —, a valid key — the given one when one was given —, and its
node directory, named after the network and the node id, exists there. -/
theorem C79_running (sys : Sys) (fs : Fs) (es : List Event) (p : Proc) (hp : p ∈ (run sys ⟨fs, []⟩ es).procs)
    (d n : Path) (k : Bytes) (hph : p.phase = .running d n k) :
    Wanted sys p.options d ∧ (run sys ⟨fs, []⟩ es).fs d = some .dir ∧ sys.isKey k = true ∧
    (∀ k', p.options.privateKey = some k' → k = k') ∧
    n = d ++ [nodeDirName p.options.network (sys.nodeId k)] ∧ (run sys ⟨fs, []⟩ es).fs n = some .dir := by
  have h := (sound_run sys es _ (sound_init sys fs)).good p hp
  rw [hph] at h
  exact h

/-- **C79 (ephemeral).** The data directory of an ephemeral start is new: no two ephemeral processes ever share one. -/
theorem C79_ephemeral (sys : Sys) (fs : Fs) (es : List Event) (i j : Nat) (p q : Proc)
    (hi : (run sys ⟨fs, []⟩ es).procs[i]? = some p) (hj : (run sys ⟨fs, []⟩ es).procs[j]? = some q) (hne : i ≠ j)
    (hp : p.options.ephemeral = true) (hq : q.options.ephemeral = true) (d : Path) (hd : HasDir p d) : ¬ HasDir q d :=
  (sound_run sys es _ (sound_init sys fs)).apart i j p q hi hj hne hp hq d hd

/-- **C79 (a new directory).** The step in which an ephemeral process gets its data directory makes that directory: it did
not exist. -/
theorem C79_ephemeral_new (sys : Sys) (fs fs' : Fs) (o : Options) (name : Name) (gen : Bytes) (d : Path)
    (he : o.ephemeral = true) (h : advance sys fs o name gen .start = some (fs', .configure d)) :
    fs d = none ∧ fs' d = some .dir := by
  obtain ⟨-, hc | ⟨d', hd, -, h1, h2⟩⟩ := setupDir_spec (sys := sys) (fs := fs) (o := o) (name := name) h
  · cases hc
  · cases hd
    exact ⟨h2 he, h1⟩

/-- **C79 (a given key).** Starts with a private key change no file: whatever happens, the same files have the same
content. -/
theorem C79_custom (sys : Sys) (fs : Fs) (es : List Event) (hall : ∀ o, .spawn o ∈ es → o.privateKey ≠ none)
    (q : Path) (c : List Char) : (run sys ⟨fs, []⟩ es).fs q = some (.file c) ↔ fs q = some (.file c) :=
  (custom_run sys es ⟨fs, []⟩ (sound_init sys fs) (by simp) hall).same

/-- **C79 (starting works).** A start on its own with consistent options runs, in the wanted directory, when no file is in
the way: with the given key, or the key in the file, or — when there is none — the generated one; and then the key file
holds that key. -/
theorem C79_starts (sys : Sys) (fs : Fs) (o : Options) (name : Name) (gen : Bytes) (d : Path) (k : Bytes)
    (hboth : ¬ (o.dataDir.isSome ∧ o.envVar.isSome))
    (hd : some d = if o.ephemeral then some (((o.dataDir.or o.envVar).getD sys.tempDir) ++ ["trin".toList, name])
      else (o.dataDir.or o.envVar).or sys.defaultDir)
    (hfresh : o.ephemeral = true → fs d = none)
    (hway : ∀ q c, q <+: d ∨ q = d ++ [nodeDirName o.network (sys.nodeId k)] → fs q ≠ some (.file c))
    (hk : (o.privateKey = some k ∧ sys.isKey k = true) ∨ (o.privateKey = none ∧ Holds sys fs d k) ∨
      (o.privateKey = none ∧ fs (d ++ ["unsafe_private_key.hex".toList]) = none ∧ gen = k ∧ sys.isKey k = true)) :
    ∃ p, (run sys ⟨fs, []⟩ (.spawn o :: List.replicate 6 (.step 0 name gen))).procs[0]? = some p ∧
      p.phase = .running d (d ++ [nodeDirName o.network (sys.nodeId k)]) k ∧
      (o.privateKey = none → Holds sys (run sys ⟨fs, []⟩ (.spawn o :: List.replicate 6 (.step 0 name gen))).fs d k) := by
  obtain ⟨fs1, h1, g1, -, g3⟩ := wanted_dir hboth hd (fun q c hq => hway q c (.inl hq)) hfresh
  have hkey : fs1 (keyFile d) = fs (keyFile d) :=
    Classical.byContradiction fun hc => keyFile_not_prefix d (g3 _ hc)
  obtain ⟨fs2, h2, h3⟩ := configure_runs (sys := sys) (fs := fs1) (o := o) (d := d) (k := k) (gen := gen) (name := name)
    (by intro q c hq hf; exact hway q c (.inl hq) (g1.same.mp hf))
    (by intro c hf; exact hway _ c (.inr rfl) (g1.same.mp hf))
    (by
      rw [holds_iff] at hk
      rw [hkey]
      exact hk)
  have hrun : run sys ⟨fs, []⟩ (.spawn o :: List.replicate 6 (.step 0 name gen)) =
      ⟨fs2, [⟨o, .running d (nodeDir d o.network (sys.nodeId k)) k⟩]⟩ := by
    rw [← h2, List.replicate_succ]
    exact run_step (sys := sys) (fs := fs) (o := o) (ph := .start) (name := name) (gen := gen) h1 _
  rw [hrun]
  exact ⟨_, rfl, rfl, fun ho => holds_iff.mpr (h3 ho)⟩

/-- **C79 (node directories).** Two node directories have the same name exactly when the networks are the same and the
node ids have the same first four bytes. -/
theorem C79_dir_name (n m : Events.Network) (a b : Id) :
    nodeDirName n a = nodeDirName m b ↔ n = m ∧ a.bytes.take 4 = b.bytes.take 4 :=
  nodeDirName_iff n m a b

/-- **C79 fails (two identities in one node directory).** Nothing else of the id is in the name: two ids can share it. -/
theorem C79_dir_violated : ∃ a b : Id, a ≠ b ∧ ∀ n, nodeDirName n a = nodeDirName n b := by
  refine ⟨0, 1, by decide, fun n => (nodeDirName_iff n n 0 1).mpr ⟨rfl, ?_⟩⟩
  decide +kernel

/-- **C79 fails (a crash while the key is written).** When a first start is stopped while it fills the key file, before the
last character, then — with private keys of 32 bytes — no later start in that directory without a private key ever runs:
the file stays as it is. -/
theorem C79_crash_violated (sys : Sys) (hkeys : ∀ k, sys.isKey k = true → k.length = 32) (s : State) (i : Nat) (p : Proc)
    (d : Path) (key : Bytes) (hp : s.procs[i]? = some p) (hph : p.phase = .write d key) (hk : sys.isKey key = true)
    (hnew : s.fs (d ++ ["unsafe_private_key.hex".toList]) = some (.file []))
    (hothers : ∀ j q, s.procs[j]? = some q → j ≠ i → ¬ Writes q d) (n : Nat) (crash : Bool) (es : List Event)
    (j : Nat) (hj : s.procs.length ≤ j) (k : Bytes) : ¬ Runs (run sys s (.halt i n crash :: es)) j d k := by
  intro hr
  change s.fs (keyFile d) = _ at hnew
  have hc : s.fs.content (keyFile d) = [] := by simp [Fs.content, hnew]
  have hlast : ∀ q : Path, ¬ Writes ⟨p.options, (halt s.fs n crash (.write d key)).2⟩ q := by
    rintro q ⟨k, hk | hk⟩ <;> cases crash <;> cases hk
  have hs : step sys s (.halt i n crash) = ⟨s.fs.set (keyFile d) (.file ((Hex.hexEncode key).take (min n ((Hex.hexEncode key).length - 1)))),
      s.procs.set i ⟨p.options, (halt s.fs n crash (.write d key)).2⟩⟩ := by
    simp [step, hp, hph, halt, hc, overwrite]
  have hrun : run sys s (.halt i n crash :: es) = run sys (step sys s (.halt i n crash)) es := rfl
  rw [hrun, hs] at hr
  obtain ⟨-, h⟩ := C79_stable sys ⟨s.fs.set (keyFile d) (.file ((Hex.hexEncode key).take (min n ((Hex.hexEncode key).length - 1)))),
      s.procs.set i ⟨p.options, (halt s.fs n crash (.write d key)).2⟩⟩ d _ (Fs.set_eq _ _ _) (by
    intro x hx
    obtain ⟨a, ha⟩ := List.getElem?_of_mem hx
    rcases get_set ha with ⟨-, rfl⟩ | ⟨hne, ha⟩
    · exact hlast d
    · exact hothers a x ha hne) es
  obtain ⟨c, hf, hdec, hvalid⟩ := h j k (by simpa using hj) hr
  change (s.fs.set (keyFile d) _) (keyFile d) = _ at hf
  rw [Fs.set_eq] at hf
  cases hf
  have hlen : (Hex.hexEncode key).length = 66 := by
    simp only [Hex.hexEncode, List.length_cons, hexBody_len, hkeys key hk]
  obtain ⟨x, rest, hshape, -, -, -⟩ := (C44_accepts_iff _).mp ⟨k, hdec⟩
  have hl := congrArg List.length hshape
  rw [hshape] at hdec
  have := (C44_value x rest k hdec).1
  rw [hkeys k hvalid] at this
  simp only [List.length_take, List.length_cons, hlen] at hl
  omega

namespace IdentityExample

/-- Keys are the strings of 32 bytes other than zero; the id is the key's number. -/
def sys : Sys where
  tempDir := ["tmp".toList]
  defaultDir := some ["home".toList, "trin".toList]
  isKey k := k.length == 32 && k.any (· != 0)
  nodeId k := BitVec.ofNat 256 (k.foldl (fun n b => 256 * n + b.toNat) 0)

def k0 : Bytes := List.replicate 32 7
def k1 : Bytes := List.replicate 32 9
def empty : Fs := fun _ => none
def plain : Options := ⟨none, none, false, none, .mainnet⟩
def home : Path := ["home".toList, "trin".toList]
def go (i : Nat) (k : Bytes) : Event := .step i [] k

/-- Two first starts at the same time: both find no key file; the second fills it after the first has read it. -/
def race : List Event := [.spawn plain, .spawn plain, go 0 k0, go 1 k1, go 0 k0, go 1 k1,
  go 0 k0, go 0 k0, go 0 k0, go 0 k0, go 1 k1, go 1 k1, go 1 k1, go 1 k1]

def after : State := run sys ⟨empty, []⟩ race

theorem after_first : after.procs[0]?.map (·.phase) = some (.running home (nodeDir home .mainnet (sys.nodeId k0)) k0) := by
  decide +kernel

theorem after_second : after.procs[1]?.map (·.phase) = some (.running home (nodeDir home .mainnet (sys.nodeId k1)) k1) := by
  decide +kernel

theorem after_file : after.fs (keyFile home) = some (.file (Hex.hexEncode k1)) := by decide +kernel

theorem after_options : after.procs.map (·.options.privateKey) = [none, none] := by decide +kernel

end IdentityExample

open IdentityExample in
/-- **C79 fails (two first starts at once).** Two starts in the same new directory can both run, with different keys; the
key of the first is lost: whatever happens after that, every later start there runs with the key of the second. -/
theorem C79_race_violated : ∃ (sys : Sys) (es : List Event) (d : Path) (k k' : Bytes), k ≠ k' ∧
    Runs (run sys ⟨fun _ => none, []⟩ es) 0 d k ∧ Runs (run sys ⟨fun _ => none, []⟩ es) 1 d k' ∧
    ∀ more i key, 2 ≤ i → Runs (run sys (run sys ⟨fun _ => none, []⟩ es) more) i d key → key = k' := by
  refine ⟨sys, race, home, k0, k1, by decide, ?_, ?_, ?_⟩
  · obtain ⟨p, h1, h2⟩ := Option.map_eq_some_iff.mp after_first
    refine ⟨p, _, h1, ?_, h2⟩
    have := after_options
    have hm : p.options.privateKey ∈ after.procs.map (·.options.privateKey) := List.mem_map.mpr ⟨p, List.mem_of_getElem? h1, rfl⟩
    rw [this] at hm
    simpa using hm
  · obtain ⟨p, h1, h2⟩ := Option.map_eq_some_iff.mp after_second
    refine ⟨p, _, h1, ?_, h2⟩
    have := after_options
    have hm : p.options.privateKey ∈ after.procs.map (·.options.privateKey) := List.mem_map.mpr ⟨p, List.mem_of_getElem? h1, rfl⟩
    rw [this] at hm
    simpa using hm
  · intro more i key hi hr
    have hlen : after.procs.length = 2 := by
      have := congrArg List.length after_options
      simpa using this
    have hq : ∀ p ∈ after.procs, ¬ Writes p home := by
      intro p hp
      obtain ⟨j, hj⟩ := List.getElem?_of_mem hp
      have hj2 : j < 2 := by
        have := (List.getElem?_eq_some_iff.mp hj).1
        omega
      rcases (by omega : j = 0 ∨ j = 1) with rfl | rfl
      · have := after_first
        rw [hj] at this
        rintro ⟨k, hk | hk⟩ <;> simp [hk] at this
      · have := after_second
        rw [hj] at this
        rintro ⟨k, hk | hk⟩ <;> simp [hk] at this
    obtain ⟨c, hc, hd, -⟩ := (C79_stable sys after home _ after_file hq more).2 i key (by rw [hlen]; exact hi) hr
    change after.fs (keyFile home) = _ at hc
    rw [after_file] at hc
    cases hc
    rw [(C44_roundtrip k1).1] at hd
    exact (Except.ok.inj hd).symm

namespace IdentityExample

/-- Two first starts at the same time; the second is killed after ten characters, when the first has written its key. -/
def mix : List Event := [.spawn plain, .spawn plain, go 0 k0, go 1 k1, go 0 k0, go 1 k1, go 0 k0, go 1 k1, go 0 k0,
  .halt 1 10 true] ++ .spawn plain :: List.replicate 6 (go 2 k0)

def mixed : Bytes := List.replicate 4 9 ++ List.replicate 28 7

theorem mix_third : (run sys ⟨empty, []⟩ mix).procs[2]?.map (fun p => (p.options.privateKey, p.phase)) =
    some (none, .running home (nodeDir home .mainnet (sys.nodeId mixed)) mixed) := by decide +kernel

end IdentityExample

open IdentityExample in
/-- **C79 fails (a crash beside another first start).** A node can run with a private key that no start generated and nobody
gave: the beginning of one key and the rest of another. -/
theorem C79_mixed_violated : ∃ (sys : Sys) (es : List Event) (d : Path) (k : Bytes),
    (∀ e ∈ es, ∀ o, e = .spawn o → o.privateKey = none) ∧ (∀ e ∈ es, ∀ i name gen, e = .step i name gen → gen ≠ k) ∧
    Runs (run sys ⟨fun _ => none, []⟩ es) 2 d k := by
  refine ⟨sys, mix, home, mixed, ?_, ?_, ?_⟩
  · rintro e he o rfl
    simp [mix, go, List.replicate] at he
    subst he
    rfl
  · rintro e he i name gen rfl
    have : gen = k0 ∨ gen = k1 := by
      simp [mix, go, List.replicate] at he
      rcases he with h | h | h | h | h | h | h | h <;> simp [h]
    rcases this with rfl | rfl <;> decide
  · obtain ⟨p, h1, h2⟩ := Option.map_eq_some_iff.mp mix_third
    simp only [Prod.mk.injEq] at h2
    exact ⟨p, _, h1, h2.1, h2.2⟩

/-! ## Cases that meet the hypotheses -/

namespace IdentityExample

/-- One start, then another one in the same directory, with another generated key at hand: same identity. -/
def twice : List Event := .spawn plain :: List.replicate 6 (go 0 k0) ++ .spawn plain :: List.replicate 6 (go 1 k1)

example : (run sys ⟨empty, []⟩ twice).procs.map (·.phase) =
    [.running home (nodeDir home .mainnet (sys.nodeId k0)) k0, .running home (nodeDir home .mainnet (sys.nodeId k0)) k0] := by
  decide +kernel

example : Orderly sys ⟨empty, []⟩ twice := by
  have settled : ∀ p ∈ (run sys ⟨empty, []⟩ (.spawn plain :: List.replicate 6 (go 0 k0))).procs, Settled p := by
    have h : (run sys ⟨empty, []⟩ (.spawn plain :: List.replicate 6 (go 0 k0))).procs.map (·.phase) =
        [.running home (nodeDir home .mainnet (sys.nodeId k0)) k0] := by decide +kernel
    intro p hp
    have hm : p.phase ∈ (run sys ⟨empty, []⟩ (.spawn plain :: List.replicate 6 (go 0 k0))).procs.map (·.phase) :=
      List.mem_map.mpr ⟨p, hp, rfl⟩
    rw [h, List.mem_singleton] at hm
    exact .inl ⟨_, _, _, hm⟩
  exact ⟨by simp, trivial, trivial, trivial, trivial, trivial, trivial, settled, trivial, trivial, trivial, trivial, trivial,
    trivial, trivial⟩

/-- A start stopped after ten characters of the key; the next one fails. -/
def broken : List Event := [.spawn plain, go 0 k0, go 0 k0, go 0 k0, .halt 0 10 true] ++
  .spawn plain :: List.replicate 6 (go 1 k1)

example : (run sys ⟨empty, []⟩ broken).procs.map (·.phase) = [.crashed, .failed] := by decide +kernel
example : (run sys ⟨empty, []⟩ [.spawn plain, go 0 k0, go 0 k0, go 0 k0]).procs.map (·.phase) = [.write home k0] ∧
    (run sys ⟨empty, []⟩ [.spawn plain, go 0 k0, go 0 k0, go 0 k0]).fs (keyFile home) = some (.file []) := by decide +kernel
example : ∀ k, sys.isKey k = true → k.length = 32 := by
  intro k h
  simp only [sys, Bool.and_eq_true, beq_iff_eq] at h
  exact h.1

/-- Two ephemeral starts, and one with a given key and both ways to name a directory. -/
def temp (k : Option Bytes) : Options := ⟨none, none, true, k, .sepolia⟩
def some1 : List Event := [.spawn (temp none), .spawn (temp (some k1))] ++
  List.replicate 6 (.step 0 ['a'] k0) ++ List.replicate 6 (.step 1 ['b'] k0)
example : (run sys ⟨empty, []⟩ some1).procs.map (·.phase) =
    [.running ["tmp".toList, "trin".toList, ['a']] (["tmp".toList, "trin".toList, ['a'], "sepolia_trin_07070707".toList]) k0,
     .running ["tmp".toList, "trin".toList, ['b']] (["tmp".toList, "trin".toList, ['b'], "sepolia_trin_09090909".toList]) k1] := by
  decide +kernel
example : (run sys ⟨empty, []⟩ [.spawn ⟨some home, some home, false, none, .mainnet⟩, go 0 k0]).procs.map (·.phase) = [.failed] := by
  decide +kernel

end IdentityExample

end Verif.Props
