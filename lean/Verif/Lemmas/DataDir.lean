import Verif.Props.DataDirSpec
import Verif.Props.Hex

/-! # Lemmas for data directories and keys -/

namespace Verif.DataDir
open Verif.Hex (hexEncode hexDecode hexBody digit)
open Verif.Props.Identity

/-- Nothing that existed has changed, and new are only directories. -/
def Grows (fs fs' : Fs) : Prop := ∀ q, fs' q = fs q ∨ (fs q = none ∧ fs' q = some .dir)

theorem Grows.refl (fs : Fs) : Grows fs fs := fun _ => .inl rfl

theorem Grows.trans {a b c : Fs} (h : Grows a b) (h' : Grows b c) : Grows a c := by
  intro q
  rcases h q with h1 | ⟨h1, h2⟩
  · rcases h' q with h3 | ⟨h3, h4⟩
    · exact .inl (h3.trans h1)
    · exact .inr ⟨h1 ▸ h3, h4⟩
  · rcases h' q with h3 | ⟨h3, h4⟩
    · exact .inr ⟨h1, h3.trans h2⟩
    · exact .inr ⟨h1, h4⟩

theorem Grows.keep {fs fs' : Fs} (h : Grows fs fs') {q : Path} {n : Node} (hq : fs q = some n) : fs' q = some n := by
  rcases h q with h1 | ⟨h1, -⟩
  · rw [h1, hq]
  · rw [hq] at h1; cases h1

theorem Grows.same {fs fs' : Fs} (h : Grows fs fs') {q : Path} {c : List Char} : fs' q = some (.file c) ↔ fs q = some (.file c) := by
  constructor
  · intro hq
    rcases h q with h1 | ⟨h1, h2⟩
    · rw [← h1, hq]
    · rw [hq] at h2; cases h2
  · exact h.keep

theorem Fs.set_eq (fs : Fs) (p : Path) (n : Node) : fs.set p n p = some n := by simp [Fs.set]
theorem Fs.set_ne (fs : Fs) {p q : Path} (n : Node) (h : q ≠ p) : fs.set p n q = fs q := by simp [Fs.set, h]

theorem grows_set {fs : Fs} {p : Path} (h : fs p = none) : Grows fs (fs.set p .dir) := by
  intro q
  by_cases hq : q = p
  · subst hq; exact .inr ⟨h, Fs.set_eq _ _ _⟩
  · exact .inl (Fs.set_ne _ _ hq)

theorem mkdir_grows {fs fs' : Fs} {p : Path} (h : mkdir fs p = some fs') : Grows fs fs' ∧ fs' p = some .dir := by
  unfold mkdir at h
  split at h
  · rename_i hp
    cases h
    exact ⟨Grows.refl _, hp⟩
  · cases h
  · rename_i hp
    cases h
    exact ⟨grows_set hp, Fs.set_eq _ _ _⟩

/-- Which paths `mkdirsFrom` may change. -/
theorem mkdirsFrom_spec {rest : List Name} : ∀ {fs fs' : Fs} {done : Path}, mkdirsFrom fs done rest = some fs' →
    Grows fs fs' ∧ fs' (done ++ rest) = some .dir ∧ ∀ q, fs' q ≠ fs q → q <+: done ++ rest := by
  induction rest with
  | nil =>
    intro fs fs' done h
    obtain ⟨h1, h2⟩ := mkdir_grows h
    refine ⟨h1, by simpa using h2, ?_⟩
    intro q hq
    rw [List.append_nil]
    simp only [mkdirsFrom, mkdir] at h
    split at h
    · cases h; exact absurd rfl hq
    · cases h
    · cases h
      by_cases hqd : q = done
      · rw [hqd]; exact List.prefix_refl _
      · exact absurd (Fs.set_ne _ _ hqd) hq
  | cons n rest ih =>
    intro fs fs' done h
    simp only [mkdirsFrom] at h
    cases hm : mkdir fs done with
    | none => rw [hm] at h; cases h
    | some fs1 =>
      rw [hm] at h
      obtain ⟨h1, h2⟩ := mkdir_grows hm
      obtain ⟨h3, h4, h5⟩ := ih h
      rw [List.append_assoc, List.singleton_append] at h4 h5
      refine ⟨h1.trans h3, h4, ?_⟩
      intro q hq
      by_cases hc : fs' q = fs1 q
      · rw [hc] at hq
        simp only [mkdir] at hm
        split at hm
        · cases hm; exact absurd rfl hq
        · cases hm
        · cases hm
          by_cases hqd : q = done
          · rw [hqd]; exact List.prefix_append _ _
          · exact absurd (Fs.set_ne _ _ hqd) hq
      · exact h5 q hc

theorem mkdirs_spec {fs fs' : Fs} {p : Path} (h : mkdirs fs p = some fs') :
    Grows fs fs' ∧ fs' p = some .dir ∧ ∀ q, fs' q ≠ fs q → q <+: p := by
  have := mkdirsFrom_spec h
  simpa using this

/-- Without files `mkdirs` works. -/
theorem mkdirsFrom_some {rest : List Name} : ∀ {fs : Fs} {done : Path},
    (∀ q c, q <+: done ++ rest → fs q ≠ some (.file c)) → ∃ fs', mkdirsFrom fs done rest = some fs' := by
  have one : ∀ {fs : Fs} {p : Path}, (∀ c, fs p ≠ some (.file c)) → ∃ fs', mkdir fs p = some fs' := by
    intro fs p h
    unfold mkdir
    split
    · exact ⟨_, rfl⟩
    · rename_i c hc; exact absurd hc (h c)
    · exact ⟨_, rfl⟩
  induction rest with
  | nil =>
    intro fs done h
    exact one fun c => h done c (by simp)
  | cons n rest ih =>
    intro fs done h
    obtain ⟨fs1, h1⟩ := one (fs := fs) (p := done) fun c => h done c (List.prefix_append _ _)
    obtain ⟨fs2, h2⟩ := ih (fs := fs1) (done := done ++ [n]) (by
      intro q c hq hf
      rw [List.append_assoc, List.singleton_append] at hq
      exact h q c hq ((mkdir_grows h1).1.same.mp hf))
    exact ⟨fs2, by simp only [mkdirsFrom, h1, Option.bind_some, h2]⟩

theorem mkdirs_some {fs : Fs} {p : Path} (h : ∀ q c, q <+: p → fs q ≠ some (.file c)) : ∃ fs', mkdirs fs p = some fs' :=
  mkdirsFrom_some (by simpa using h)

theorem keyFile_inj {d d' : Path} : keyFile d = keyFile d' ↔ d = d' := by
  constructor
  · intro h
    exact (List.append_inj' h rfl).1
  · rintro rfl; rfl

theorem keyFile_spec (d : Path) : keyFile d = d ++ ["unsafe_private_key.hex".toList] := rfl

/-! ## One step -/

theorem setupDir_spec {sys : Sys} {fs fs' : Fs} {o : Options} {name : Name} {ph : Phase}
    (h : setupDir sys fs o name = some (fs', ph)) :
    Grows fs fs' ∧ (ph = .failed ∨ ∃ dir, ph = .configure dir ∧ Wanted sys o dir ∧ fs' dir = some .dir ∧
      (o.ephemeral = true → fs dir = none)) := by
  unfold setupDir at h
  split at h
  · cases h; exact ⟨Grows.refl _, .inl rfl⟩
  · rename_i hb
    rw [Bool.and_eq_true] at hb
    simp only at h
    split at h
    · rename_i he
      cases hm : mkdirs fs ((o.dataDir.or o.envVar).getD sys.tempDir ++ [appName]) with
      | none => rw [hm] at h; cases h; exact ⟨Grows.refl _, .inl rfl⟩
      | some fs1 =>
        rw [hm] at h
        simp only at h
        obtain ⟨h1, h2, -⟩ := mkdirs_spec hm
        split at h
        · cases h
        · rename_i hno
          simp only [Option.not_isSome_iff_eq_none] at hno
          cases h
          refine ⟨h1.trans (grows_set hno), .inr ⟨_, rfl, ⟨hb, ?_⟩, Fs.set_eq _ _ _, ?_⟩⟩
          · rw [if_pos he]
            exact ⟨name, by simp [appName]⟩
          · intro _
            rcases h1 ((o.dataDir.or o.envVar).getD sys.tempDir ++ [appName] ++ [name]) with hq | ⟨hq, -⟩
            · rw [← hq, hno]
            · exact hq
    · rename_i he
      cases hd : (o.dataDir.or o.envVar).or sys.defaultDir with
      | none => rw [hd] at h; cases h; exact ⟨Grows.refl _, .inl rfl⟩
      | some dir =>
        rw [hd] at h
        simp only at h
        cases hm : mkdirs fs dir with
        | none => rw [hm] at h; cases h; exact ⟨Grows.refl _, .inl rfl⟩
        | some fs1 =>
          rw [hm] at h
          cases h
          obtain ⟨h1, h2, -⟩ := mkdirs_spec hm
          refine ⟨h1, .inr ⟨dir, rfl, ⟨hb, ?_⟩, h2, fun hc => absurd hc he⟩⟩
          rw [if_neg he, hd]

theorem parseKey_iff {sys : Sys} {c : List Char} {k : Bytes} :
    parseKey sys c = some k ↔ hexDecode c = .ok k ∧ sys.isKey k = true := by
  unfold parseKey
  cases h : hexDecode c with
  | error e => simp
  | ok bs =>
    simp only
    split
    · rename_i hk
      simp only [Option.some.injEq, Except.ok.injEq]
      exact ⟨fun e => ⟨e, e ▸ hk⟩, fun e => e.1⟩
    · rename_i hk
      simp only [Except.ok.injEq]
      exact ⟨fun e => (nomatch e), fun ⟨e, hk'⟩ => absurd hk' (e ▸ hk)⟩

theorem holds_iff {sys : Sys} {fs : Fs} {d : Path} {k : Bytes} :
    Holds sys fs d k ↔ ∃ c, fs (keyFile d) = some (.file c) ∧ parseKey sys c = some k := by
  unfold Holds
  simp only [parseKey_iff]
  rfl

/-- What a step of a process does, apart from the key file: the possible next phases. -/
inductive Move (sys : Sys) (fs : Fs) (o : Options) : Phase → Fs → Phase → Prop
  | setup {fs' dir} : Grows fs fs' → Wanted sys o dir → fs' dir = some .dir → (o.ephemeral = true → fs dir = none) →
      Move sys fs o .start fs' (.configure dir)
  | custom {dir k} : o.privateKey = some k → sys.isKey k = true → Move sys fs o (.configure dir) fs (.makeDir dir k)
  | found {dir} : o.privateKey = none → (fs (keyFile dir)).isSome → Move sys fs o (.configure dir) fs (.read dir)
  | missing {dir gen} : o.privateKey = none → fs (keyFile dir) = none → sys.isKey gen = true →
      Move sys fs o (.configure dir) fs (.create dir gen)
  | create {dir key} : fs (keyFile dir) ≠ some .dir →
      Move sys fs o (.create dir key) (fs.set (keyFile dir) (.file [])) (.write dir key)
  | write {dir key} : Move sys fs o (.write dir key)
      (fs.set (keyFile dir) (.file (overwrite (hexEncode key).length (hexEncode key) (fs.content (keyFile dir))))) (.read dir)
  | read {dir c k} : fs (keyFile dir) = some (.file c) → parseKey sys c = some k → Move sys fs o (.read dir) fs (.makeDir dir k)
  | makeDir {dir key fs'} : Grows fs fs' → fs' (nodeDir dir o.network (sys.nodeId key)) = some .dir →
      Move sys fs o (.makeDir dir key) fs' (.running dir (nodeDir dir o.network (sys.nodeId key)) key)
  | fail {ph fs'} : ¬ Settled ⟨o, ph⟩ → Grows fs fs' → Move sys fs o ph fs' .failed

theorem advance_move {sys : Sys} {fs fs' : Fs} {o : Options} {name : Name} {gen : Bytes} {ph ph' : Phase}
    (h : advance sys fs o name gen ph = some (fs', ph')) : Move sys fs o ph fs' ph' := by
  cases ph with
  | start =>
    obtain ⟨h1, rfl | ⟨dir, rfl, h2, h3, h4⟩⟩ := setupDir_spec h
    · exact .fail (by simp [Settled]) h1
    · exact .setup h1 h2 h3 h4
  | configure dir =>
    simp only [advance] at h
    split at h
    · rename_i k hk
      split at h
      · rename_i hv; cases h; exact .custom hk hv
      · cases h; exact .fail (by simp [Settled]) (Grows.refl _)
    · rename_i hk
      split at h
      · rename_i hf; cases h; exact .found hk hf
      · rename_i hf
        split at h
        · rename_i hg; cases h; exact .missing hk (by simpa using hf) hg
        · cases h
  | create dir key =>
    simp only [advance] at h
    split at h
    · cases h; exact .fail (by simp [Settled]) (Grows.refl _)
    · rename_i hd; cases h; exact .create hd
  | write dir key =>
    simp only [advance] at h
    cases h; exact .write
  | read dir =>
    simp only [advance] at h
    split at h
    · rename_i c hc
      split at h
      · rename_i k hk; cases h; exact .read hc hk
      · cases h; exact .fail (by simp [Settled]) (Grows.refl _)
    · cases h; exact .fail (by simp [Settled]) (Grows.refl _)
  | makeDir dir key =>
    simp only [advance] at h
    split at h
    · cases h; exact .fail (by simp [Settled]) (Grows.refl _)
    · rename_i fs1 hm
      cases h
      obtain ⟨h1, h2, -⟩ := mkdirs_spec hm
      exact .makeDir h1 h2
  | running a b c => cases h
  | failed => cases h
  | crashed => cases h

/-- What stopping a process does: only the file it was writing changes. -/
theorem halt_spec (fs : Fs) (n : Nat) (crash : Bool) (ph : Phase) :
    ((halt fs n crash ph).2 = .failed ∨ (halt fs n crash ph).2 = .crashed) ∧
    ((halt fs n crash ph).1 = fs ∨ ∃ d k, ph = .write d k ∧ (halt fs n crash ph).1 =
      fs.set (keyFile d) (.file (overwrite (min n ((hexEncode k).length - 1)) (hexEncode k) (fs.content (keyFile d))))) := by
  cases ph with
  | write d k => refine ⟨by cases crash <;> simp [halt], .inr ⟨d, k, rfl, rfl⟩⟩
  | _ => cases crash <;> simp [halt]

/-- Cases of a step: nothing, a new process, or one process moves or is stopped. -/
theorem step_cases (sys : Sys) (s : State) (e : Event) :
    step sys s e = s ∨
    (∃ o, e = .spawn o ∧ step sys s e = ⟨s.fs, s.procs ++ [⟨o, .start⟩]⟩) ∨
    ∃ i p fs ph, s.procs[i]? = some p ∧ step sys s e = ⟨fs, s.procs.set i ⟨p.options, ph⟩⟩ ∧
      ((∃ name gen, e = .step i name gen ∧ Move sys s.fs p.options p.phase fs ph) ∨
       ∃ n crash, e = .halt i n crash ∧ halt s.fs n crash p.phase = (fs, ph)) := by
  cases e with
  | spawn o => exact .inr (.inl ⟨o, rfl, rfl⟩)
  | step i name gen =>
    simp only [step]
    split
    · exact .inl rfl
    · rename_i p hp
      split
      · exact .inl rfl
      · rename_i fs ph hm
        exact .inr (.inr ⟨i, p, fs, ph, hp, rfl, .inl ⟨name, gen, rfl, advance_move hm⟩⟩)
  | halt i n crash =>
    simp only [step]
    split
    · exact .inl rfl
    · rename_i p hp
      exact .inr (.inr ⟨i, p, _, _, hp, rfl, .inr ⟨n, crash, rfl, rfl⟩⟩)

theorem get_set {l : List Proc} {i j : Nat} {p x : Proc} (h : (l.set i p)[j]? = some x) : (j = i ∧ x = p) ∨ (j ≠ i ∧ l[j]? = some x) := by
  by_cases hij : j = i
  · subst hij
    rw [List.getElem?_set] at h
    simp only [if_true] at h
    split at h
    · exact .inl ⟨rfl, (Option.some.inj h).symm⟩
    · cases h
  · rw [List.getElem?_set_ne (Ne.symm hij)] at h
    exact .inr ⟨hij, h⟩

theorem get_append {l : List Proc} {j : Nat} {p x : Proc} (h : (l ++ [p])[j]? = some x) : (j = l.length ∧ x = p) ∨ l[j]? = some x := by
  rw [List.getElem?_append] at h
  split at h
  · exact .inr h
  · rename_i hj
    left
    have hz : j - l.length = 0 := by
      refine Nat.eq_zero_of_not_pos fun hpos => ?_
      rw [List.getElem?_eq_none (by simp; omega)] at h
      cases h
    rw [hz] at h
    exact ⟨by omega, (Option.some.inj h).symm⟩

/-! ## A key file that exists -/

structure Kept (sys : Sys) (d : Path) (node : Node) (n0 : Nat) (s : State) : Prop where
  file : s.fs (keyFile d) = some node
  quiet : ∀ p ∈ s.procs, ¬ Writes p d
  keys : ∀ i p, n0 ≤ i → s.procs[i]? = some p → p.options.privateKey = none → ∀ k,
    (p.phase = .makeDir d k ∨ ∃ n, p.phase = .running d n k) → ∃ c, node = .file c ∧ parseKey sys c = some k

theorem kept_step (sys : Sys) (d : Path) (node : Node) (n0 : Nat) (s : State) (hn : n0 ≤ s.procs.length)
    (h : Kept sys d node n0 s) (e : Event) : Kept sys d node n0 (step sys s e) ∧ n0 ≤ (step sys s e).procs.length := by
  rcases step_cases sys s e with he | ⟨o, -, he⟩ | ⟨i, p, fs, ph, hi, he, hm⟩
  · rw [he]; exact ⟨h, hn⟩
  · rw [he]
    refine ⟨⟨h.file, ?_, ?_⟩, by simp; omega⟩
    · intro p hp
      rcases List.mem_append.mp hp with hp | hp
      · exact h.quiet p hp
      · rw [List.mem_singleton.mp hp]
        rintro ⟨k, hk | hk⟩ <;> cases hk
    · intro i p hi hp
      rcases get_append hp with ⟨-, rfl⟩ | hp
      · rintro - k (hk | ⟨n, hk⟩) <;> cases hk
      · exact h.keys i p hi hp
  · rw [he]
    have hpm := List.mem_of_getElem? hi
    have hq := h.quiet p hpm
    have key : fs (keyFile d) = some node ∧ ¬ Writes ⟨p.options, ph⟩ d ∧
        (n0 ≤ i → p.options.privateKey = none → ∀ k, (ph = .makeDir d k ∨ ∃ n, ph = .running d n k) →
          ∃ c, node = .file c ∧ parseKey sys c = some k) := by
      rcases hm with ⟨name, gen, -, hm⟩ | ⟨n, crash, -, hm⟩
      · generalize hph : p.phase = ph0 at hm
        cases hm with
        | setup hg _ _ _ =>
          refine ⟨hg.keep h.file, ?_, ?_⟩
          · rintro ⟨k, hk | hk⟩ <;> cases hk
          · rintro - - k (hk | ⟨n, hk⟩) <;> cases hk
        | custom hk _ =>
          refine ⟨h.file, ?_, ?_⟩
          · rintro ⟨k, hk | hk⟩ <;> cases hk
          · intro _ hn; rw [hk] at hn; cases hn
        | found _ _ =>
          refine ⟨h.file, ?_, ?_⟩
          · rintro ⟨k, hk | hk⟩ <;> cases hk
          · rintro - - k (hk | ⟨n, hk⟩) <;> cases hk
        | @missing dir gen _ hno _ =>
          have hne : dir ≠ d := by
            rintro rfl
            rw [h.file] at hno; cases hno
          refine ⟨h.file, ?_, ?_⟩
          · rintro ⟨k, hk | hk⟩
            · cases hk; exact hne rfl
            · cases hk
          · rintro - - k (hk | ⟨n, hk⟩) <;> cases hk
        | @create dir key _ =>
          have hne : dir ≠ d := by
            rintro rfl
            exact hq ⟨key, .inl hph⟩
          refine ⟨?_, ?_, ?_⟩
          · rw [Fs.set_ne _ _ fun hc => hne (keyFile_inj.mp hc).symm]; exact h.file
          · rintro ⟨k, hk | hk⟩
            · cases hk
            · cases hk; exact hne rfl
          · rintro - - k (hk | ⟨n, hk⟩) <;> cases hk
        | @write dir key =>
          have hne : dir ≠ d := by
            rintro rfl
            exact hq ⟨key, .inr hph⟩
          refine ⟨?_, ?_, ?_⟩
          · rw [Fs.set_ne _ _ fun hc => hne (keyFile_inj.mp hc).symm]; exact h.file
          · rintro ⟨k, hk | hk⟩ <;> cases hk
          · rintro - - k (hk | ⟨n, hk⟩) <;> cases hk
        | @read dir c k hc hk =>
          refine ⟨h.file, ?_, ?_⟩
          · rintro ⟨k, hk | hk⟩ <;> cases hk
          · rintro - - k' (hk' | ⟨n, hk'⟩)
            · cases hk'
              rw [h.file] at hc
              exact ⟨c, Option.some.inj hc, hk⟩
            · cases hk'
        | @makeDir dir key fs' hg _ =>
          refine ⟨hg.keep h.file, ?_, ?_⟩
          · rintro ⟨k, hk | hk⟩ <;> cases hk
          · rintro hni hnone k' (hk' | ⟨n, hk'⟩)
            · cases hk'
            · cases hk'
              exact h.keys i p hni hi hnone key (.inl hph)
        | fail _ hg =>
          refine ⟨hg.keep h.file, ?_, ?_⟩
          · rintro ⟨k, hk | hk⟩ <;> cases hk
          · rintro - - k (hk | ⟨n, hk⟩) <;> cases hk
      · obtain ⟨h1, h2⟩ := halt_spec s.fs n crash p.phase
        rw [hm] at h1 h2
        simp only at h1 h2
        refine ⟨?_, ?_, ?_⟩
        · rcases h2 with h2 | ⟨d', k, hp, h2⟩
          · rw [h2]; exact h.file
          · have hne : d' ≠ d := by
              rintro rfl
              exact hq ⟨k, .inr hp⟩
            rw [h2, Fs.set_ne _ _ fun hc => hne (keyFile_inj.mp hc).symm]; exact h.file
        · rintro ⟨k, hk | hk⟩ <;> simp only at hk <;> rw [hk] at h1 <;> rcases h1 with h1 | h1 <;> cases h1
        · rintro - - k (hk | ⟨n, hk⟩) <;> rw [hk] at h1 <;> rcases h1 with h1 | h1 <;> cases h1
    obtain ⟨k1, k2, k3⟩ := key
    refine ⟨⟨k1, ?_, ?_⟩, by simpa using hn⟩
    · intro x hx
      rcases List.mem_or_eq_of_mem_set hx with hx | rfl
      · exact h.quiet x hx
      · exact k2
    · intro j x hj hx
      rcases get_set hx with ⟨rfl, rfl⟩ | ⟨-, hx⟩
      · exact k3 hj
      · exact h.keys j x hj hx

theorem kept_run (sys : Sys) (d : Path) (node : Node) (n0 : Nat) (es : List Event) : ∀ s : State, n0 ≤ s.procs.length →
    Kept sys d node n0 s → Kept sys d node n0 (run sys s es) := by
  induction es with
  | nil => exact fun s _ h => h
  | cons e es ih =>
    intro s hn h
    obtain ⟨h1, h2⟩ := kept_step sys d node n0 s hn h e
    exact ih _ h2 h1

/-! ## One start at a time -/

theorem overwrite_full (text : List Char) : overwrite text.length text [] = text := by simp [overwrite]

theorem parse_encode {sys : Sys} {k : Bytes} (h : sys.isKey k = true) : parseKey sys (hexEncode k) = some k :=
  parseKey_iff.mpr ⟨(Props.C44_roundtrip k).1, h⟩

structure Tidy (sys : Sys) (s : State) : Prop where
  one : ∀ (i j : Nat) (p q : Proc), s.procs[i]? = some p → s.procs[j]? = some q → ¬ Settled p → ¬ Settled q → i = j
  keys : ∀ p ∈ s.procs, p.options.privateKey = none → ∀ d k, (p.phase = .makeDir d k ∨ ∃ n, p.phase = .running d n k) →
    ∃ c, s.fs (keyFile d) = some (.file c) ∧ parseKey sys c = some k
  create : ∀ p ∈ s.procs, ∀ d k, p.phase = .create d k → s.fs (keyFile d) = none ∧ sys.isKey k = true
  write : ∀ p ∈ s.procs, ∀ d k, p.phase = .write d k → s.fs (keyFile d) = some (.file []) ∧ sys.isKey k = true

theorem settled_not {p : Proc} (h : Settled p) (d : Path) (k : Bytes) :
    p.phase ≠ .create d k ∧ p.phase ≠ .write d k ∧ p.phase ≠ .makeDir d k := by
  rcases h with ⟨a, b, c, h⟩ | h | h <;> rw [h] <;> simp

theorem tidy_step (sys : Sys) (s : State) (h : Tidy sys s) (e : Event)
    (ha : match e with
     | .spawn _ => ∀ p ∈ s.procs, Settled p
     | .halt i _ _ => ∀ p, s.procs[i]? = some p → ∀ d k, p.phase ≠ .write d k
     | .step _ _ _ => True) : Tidy sys (step sys s e) := by
  rcases step_cases sys s e with he | ⟨o, rfl, he⟩ | ⟨i, p, fs, ph, hi, he, hm⟩
  · rw [he]; exact h
  · rw [he]
    simp only at ha
    refine ⟨?_, ?_, ?_, ?_⟩
    · intro i j p q hp hq hp' hq'
      rcases get_append hp with ⟨hi, rfl⟩ | hp
      · rcases get_append hq with ⟨hj, rfl⟩ | hq
        · omega
        · exact absurd (ha q (List.mem_of_getElem? hq)) hq'
      · exact absurd (ha p (List.mem_of_getElem? hp)) hp'
    all_goals
      intro p hp
      rcases List.mem_append.mp hp with hp | hp
    · exact h.keys p hp
    · rw [List.mem_singleton.mp hp]; rintro - d k (hk | ⟨n, hk⟩) <;> cases hk
    · exact h.create p hp
    · rw [List.mem_singleton.mp hp]; intro d k hk; cases hk
    · exact h.write p hp
    · rw [List.mem_singleton.mp hp]; intro d k hk; cases hk
  · rw [he]
    have hpm := List.mem_of_getElem? hi
    -- the others, while this process is not settled
    have others : ¬ Settled p → ∀ q ∈ s.procs, ∀ j, s.procs[j]? = some q → j ≠ i → Settled q := by
      intro hp q hq j hj hne
      exact Classical.byContradiction fun hc => hne (h.one j i q p hj hi hc hp)
    -- the rest follows from facts about the files and the new phase
    have assemble : (∀ d c, s.fs (keyFile d) = some (.file c) → parseKey sys c ≠ none → fs (keyFile d) = some (.file c)) →
        (¬ Settled ⟨p.options, ph⟩ → ¬ Settled p) →
        (∀ j q, s.procs[j]? = some q → j ≠ i → ∀ d k, q.phase = .create d k → fs (keyFile d) = s.fs (keyFile d)) →
        (∀ j q, s.procs[j]? = some q → j ≠ i → ∀ d k, q.phase = .write d k → fs (keyFile d) = s.fs (keyFile d)) →
        (p.options.privateKey = none → ∀ d k, (ph = .makeDir d k ∨ ∃ n, ph = .running d n k) →
          ∃ c, fs (keyFile d) = some (.file c) ∧ parseKey sys c = some k) →
        (∀ d k, ph = .create d k → fs (keyFile d) = none ∧ sys.isKey k = true) →
        (∀ d k, ph = .write d k → fs (keyFile d) = some (.file []) ∧ sys.isKey k = true) →
        Tidy sys ⟨fs, s.procs.set i ⟨p.options, ph⟩⟩ := by
      intro a1 a2 a3 a4 a5 a6 a7
      refine ⟨?_, ?_, ?_, ?_⟩
      · intro x y q r hx hy hq hr
        rcases get_set hx with ⟨rfl, rfl⟩ | ⟨hne, hx'⟩
        · rcases get_set hy with ⟨rfl, rfl⟩ | ⟨hne', hy'⟩
          · rfl
          · exact h.one _ _ _ _ hi hy' (a2 hq) hr
        · rcases get_set hy with ⟨rfl, rfl⟩ | ⟨hne', hy'⟩
          · exact h.one _ _ _ _ hx' hi hq (a2 hr)
          · exact h.one _ _ _ _ hx' hy' hq hr
      all_goals
        intro q hq
        obtain ⟨j, hj⟩ := List.getElem?_of_mem hq
        rcases get_set hj with ⟨rfl, rfl⟩ | ⟨hne, hj⟩
      · exact a5
      · intro hn d k hk
        obtain ⟨c, h1, h2⟩ := h.keys q (List.mem_of_getElem? hj) hn d k hk
        exact ⟨c, a1 d c h1 (by rw [h2]; simp), h2⟩
      · exact a6
      · intro d k hk
        have := h.create q (List.mem_of_getElem? hj) d k hk
        dsimp only
        rw [a3 j q hj hne d k hk]; exact this
      · exact a7
      · intro d k hk
        have := h.write q (List.mem_of_getElem? hj) d k hk
        dsimp only
        rw [a4 j q hj hne d k hk]; exact this
    rcases hm with ⟨name, gen, -, hm⟩ | ⟨n, crash, rfl, hm⟩
    · have unsettled : ¬ Settled p := by
        generalize hph : p.phase = ph0 at hm
        cases hm with
        | fail hu _ =>
          intro hs
          exact hu (by simpa only [Settled, hph] using hs)
        | _ => rintro (⟨a, b, c, hs⟩ | hs | hs) <;> rw [hph] at hs <;> cases hs
      have rest : (∀ d c, s.fs (keyFile d) = some (.file c) → parseKey sys c ≠ none → fs (keyFile d) = some (.file c)) →
          (p.options.privateKey = none → ∀ d k, (ph = .makeDir d k ∨ ∃ n, ph = .running d n k) →
            ∃ c, fs (keyFile d) = some (.file c) ∧ parseKey sys c = some k) →
          (∀ d k, ph = .create d k → fs (keyFile d) = none ∧ sys.isKey k = true) →
          (∀ d k, ph = .write d k → fs (keyFile d) = some (.file []) ∧ sys.isKey k = true) →
          Tidy sys ⟨fs, s.procs.set i ⟨p.options, ph⟩⟩ := by
        intro a1 a5 a6 a7
        refine assemble a1 (fun _ => unsettled) ?_ ?_ a5 a6 a7
        · intro j q hj hne d k hk
          exact absurd hk (settled_not (others unsettled q (List.mem_of_getElem? hj) j hj hne) d k).1
        · intro j q hj hne d k hk
          exact absurd hk (settled_not (others unsettled q (List.mem_of_getElem? hj) j hj hne) d k).2.1
      generalize hph : p.phase = ph0 at hm
      cases hm with
      | setup hg _ _ _ =>
        refine rest (fun d c hc _ => hg.keep hc) ?_ ?_ ?_
        · rintro - d k (hk | ⟨n, hk⟩) <;> cases hk
        · intro d k hk; cases hk
        · intro d k hk; cases hk
      | custom hk _ =>
        refine rest (fun d c hc _ => hc) ?_ ?_ ?_
        · intro hn; rw [hk] at hn; cases hn
        · intro d k hk; cases hk
        · intro d k hk; cases hk
      | found _ _ =>
        refine rest (fun d c hc _ => hc) ?_ ?_ ?_
        · rintro - d k (hk | ⟨n, hk⟩) <;> cases hk
        · intro d k hk; cases hk
        · intro d k hk; cases hk
      | missing _ hno hkey =>
        refine rest (fun d c hc _ => hc) ?_ ?_ ?_
        · rintro - d k (hk | ⟨n, hk⟩) <;> cases hk
        · intro d k hk; cases hk; exact ⟨hno, hkey⟩
        · intro d k hk; cases hk
      | @create dir key _ =>
        obtain ⟨hno, hkey⟩ := h.create p hpm dir key hph
        refine rest ?_ ?_ ?_ ?_
        · intro d c hc _
          by_cases hd : d = dir
          · subst hd; rw [hno] at hc; cases hc
          · rw [Fs.set_ne _ _ fun e => hd (keyFile_inj.mp e)]; exact hc
        · rintro - d k (hk | ⟨n, hk⟩) <;> cases hk
        · intro d k hk; cases hk
        · intro d k hk; cases hk; exact ⟨Fs.set_eq _ _ _, hkey⟩
      | @write dir key =>
        obtain ⟨hempty, hkey⟩ := h.write p hpm dir key hph
        refine rest ?_ ?_ ?_ ?_
        · intro d c hc hv
          by_cases hd : d = dir
          · subst hd
            rw [hempty] at hc
            cases hc
            exact absurd (by simp [parseKey, hexDecode]) hv
          · rw [Fs.set_ne _ _ fun e => hd (keyFile_inj.mp e)]; exact hc
        · rintro - d k (hk | ⟨n, hk⟩) <;> cases hk
        · intro d k hk; cases hk
        · intro d k hk; cases hk
      | @read dir c k hc hk =>
        refine rest (fun d c hc _ => hc) ?_ ?_ ?_
        · rintro - d k' (hk' | ⟨n, hk'⟩)
          · cases hk'; exact ⟨c, hc, hk⟩
          · cases hk'
        · intro d k hk; cases hk
        · intro d k hk; cases hk
      | @makeDir dir key fs' hg _ =>
        refine rest (fun d c hc _ => hg.keep hc) ?_ ?_ ?_
        · rintro hn d k (hk | ⟨n, hk⟩)
          · cases hk
          · cases hk
            obtain ⟨c, h1, h2⟩ := h.keys p hpm hn dir key (.inl hph)
            exact ⟨c, hg.keep h1, h2⟩
        · intro d k hk; cases hk
        · intro d k hk; cases hk
      | fail _ hg =>
        refine rest (fun d c hc _ => hg.keep hc) ?_ ?_ ?_
        · rintro - d k (hk | ⟨n, hk⟩) <;> cases hk
        · intro d k hk; cases hk
        · intro d k hk; cases hk
    · simp only at ha
      obtain ⟨h1, h2⟩ := halt_spec s.fs n crash p.phase
      rw [hm] at h1 h2
      simp only at h1 h2
      have hfs : fs = s.fs := by
        rcases h2 with h2 | ⟨d, k, hw, -⟩
        · exact h2
        · exact absurd hw (ha p hi d k)
      subst hfs
      refine assemble (fun d c hc _ => hc) ?_ (fun _ _ _ _ _ _ _ => rfl) (fun _ _ _ _ _ _ _ => rfl) ?_ ?_ ?_
      · intro hns
        exact absurd (.inr h1) hns
      · rintro - d k (hk | ⟨n, hk⟩) <;> rw [hk] at h1 <;> rcases h1 with h1 | h1 <;> cases h1
      · intro d k hk; rw [hk] at h1; rcases h1 with h1 | h1 <;> cases h1
      · intro d k hk; rw [hk] at h1; rcases h1 with h1 | h1 <;> cases h1

theorem tidy_run (sys : Sys) (es : List Event) : ∀ s : State, Tidy sys s → Orderly sys s es → Tidy sys (run sys s es) := by
  induction es with
  | nil => exact fun s h _ => h
  | cons e es ih =>
    intro s h ho
    exact ih _ (tidy_step sys s h e ho.1) ho.2

theorem tidy_init (sys : Sys) (fs : Fs) : Tidy sys ⟨fs, []⟩ := by
  constructor <;> simp

/-! ## Every history -/

/-- What a phase says about its directory and key. -/
def Phase.Good (sys : Sys) (fs : Fs) (o : Options) : Phase → Prop
  | .start => True
  | .configure d => Wanted sys o d ∧ fs d = some .dir
  | .create d k => Wanted sys o d ∧ fs d = some .dir ∧ o.privateKey = none ∧ sys.isKey k = true
  | .write d k => Wanted sys o d ∧ fs d = some .dir ∧ o.privateKey = none ∧ sys.isKey k = true
  | .read d => Wanted sys o d ∧ fs d = some .dir ∧ o.privateKey = none
  | .makeDir d k => Wanted sys o d ∧ fs d = some .dir ∧ sys.isKey k = true ∧ ∀ k', o.privateKey = some k' → k = k'
  | .running d n k => Wanted sys o d ∧ fs d = some .dir ∧ sys.isKey k = true ∧ (∀ k', o.privateKey = some k' → k = k') ∧
      n = nodeDir d o.network (sys.nodeId k) ∧ fs n = some .dir
  | .failed => True
  | .crashed => True

theorem good_mono {sys : Sys} {fs fs' : Fs} {o : Options} (hg : ∀ q, fs q = some .dir → fs' q = some .dir) {ph : Phase}
    (h : ph.Good sys fs o) : ph.Good sys fs' o := by
  cases ph with
  | start => trivial
  | configure d => exact ⟨h.1, hg _ h.2⟩
  | create d k => exact ⟨h.1, hg _ h.2.1, h.2.2⟩
  | write d k => exact ⟨h.1, hg _ h.2.1, h.2.2⟩
  | read d => exact ⟨h.1, hg _ h.2.1, h.2.2⟩
  | makeDir d k => exact ⟨h.1, hg _ h.2.1, h.2.2⟩
  | running d n k => exact ⟨h.1, hg _ h.2.1, h.2.2.1, h.2.2.2.1, h.2.2.2.2.1, hg _ h.2.2.2.2.2⟩
  | failed => trivial
  | crashed => trivial

structure Sound (sys : Sys) (s : State) : Prop where
  good : ∀ p ∈ s.procs, p.phase.Good sys s.fs p.options
  /-- a key file being written is a file -/
  plain : ∀ p ∈ s.procs, ∀ d k, p.phase = .write d k → ∃ c, s.fs (keyFile d) = some (.file c)
  apart : ∀ (i j : Nat) (p q : Proc), s.procs[i]? = some p → s.procs[j]? = some q → i ≠ j → p.options.ephemeral = true →
    q.options.ephemeral = true → ∀ d, HasDir p d → ¬ HasDir q d

theorem hasDir_good {sys : Sys} {fs : Fs} {p : Proc} {d : Path} (h : HasDir p d) (hg : p.phase.Good sys fs p.options) :
    Wanted sys p.options d ∧ fs d = some .dir := by
  rcases h with h | ⟨k, h⟩ | ⟨k, h⟩ | h | ⟨k, h⟩ | ⟨n, k, h⟩ <;> rw [h] at hg
  · exact hg
  · exact ⟨hg.1, hg.2.1⟩
  · exact ⟨hg.1, hg.2.1⟩
  · exact ⟨hg.1, hg.2.1⟩
  · exact ⟨hg.1, hg.2.1⟩
  · exact ⟨hg.1, hg.2.1⟩

/-- A step keeps directories and files what they are. -/
theorem move_kinds {sys : Sys} {s : State} (h : Sound sys s) {p : Proc} (hp : p ∈ s.procs) {fs : Fs} {ph : Phase}
    (hm : Move sys s.fs p.options p.phase fs ph) :
    (∀ q, s.fs q = some .dir → fs q = some .dir) ∧ (∀ q c, s.fs q = some (.file c) → ∃ c', fs q = some (.file c')) := by
  generalize hph : p.phase = ph0 at hm
  have set {d : Path} {c : List Char} (hd : s.fs (keyFile d) ≠ some .dir) :
      (∀ q, s.fs q = some .dir → s.fs.set (keyFile d) (.file c) q = some .dir) ∧
      (∀ q c', s.fs q = some (.file c') → ∃ c'', s.fs.set (keyFile d) (.file c) q = some (.file c'')) := by
    constructor
    · intro q hq
      rw [Fs.set_ne _ _ (by rintro rfl; exact hd hq), hq]
    · intro q c' hq
      by_cases he : q = keyFile d
      · subst he; exact ⟨c, Fs.set_eq _ _ _⟩
      · rw [Fs.set_ne _ _ he]; exact ⟨c', hq⟩
  cases hm with
  | setup hg _ _ _ => exact ⟨fun q hq => hg.keep hq, fun q c hq => ⟨c, hg.keep hq⟩⟩
  | custom _ _ => exact ⟨fun q hq => hq, fun q c hq => ⟨c, hq⟩⟩
  | found _ _ => exact ⟨fun q hq => hq, fun q c hq => ⟨c, hq⟩⟩
  | missing _ _ _ => exact ⟨fun q hq => hq, fun q c hq => ⟨c, hq⟩⟩
  | create hd => exact set hd
  | @write d k =>
    obtain ⟨c, hc⟩ := h.plain p hp d k hph
    exact set (by rw [hc]; simp)
  | read _ _ => exact ⟨fun q hq => hq, fun q c hq => ⟨c, hq⟩⟩
  | makeDir hg _ => exact ⟨fun q hq => hg.keep hq, fun q c hq => ⟨c, hg.keep hq⟩⟩
  | fail _ hg => exact ⟨fun q hq => hg.keep hq, fun q c hq => ⟨c, hg.keep hq⟩⟩

theorem halt_kinds {sys : Sys} {s : State} (h : Sound sys s) {p : Proc} (hp : p ∈ s.procs) (n : Nat) (crash : Bool) :
    (∀ q, s.fs q = some .dir → (halt s.fs n crash p.phase).1 q = some .dir) ∧
    (∀ q c, s.fs q = some (.file c) → ∃ c', (halt s.fs n crash p.phase).1 q = some (.file c')) := by
  rcases (halt_spec s.fs n crash p.phase).2 with he | ⟨d, k, hw, he⟩
  · rw [he]; exact ⟨fun q hq => hq, fun q c hq => ⟨c, hq⟩⟩
  · obtain ⟨c, hc⟩ := h.plain p hp d k hw
    rw [he]
    constructor
    · intro q hq
      rw [Fs.set_ne _ _ (by rintro rfl; rw [hc] at hq; cases hq), hq]
    · intro q c' hq
      by_cases he : q = keyFile d
      · subst he; exact ⟨_, Fs.set_eq _ _ _⟩
      · rw [Fs.set_ne _ _ he]; exact ⟨c', hq⟩

theorem move_good {sys : Sys} {s : State} (h : Sound sys s) {p : Proc} (hp : p ∈ s.procs) {fs : Fs} {ph : Phase}
    (hm : Move sys s.fs p.options p.phase fs ph) : ph.Good sys fs p.options ∧
      (∀ d k, ph = .write d k → ∃ c, fs (keyFile d) = some (.file c)) ∧
      (∀ d, HasDir ⟨p.options, ph⟩ d → HasDir p d ∨ (p.options.ephemeral = true → s.fs d = none)) := by
  have hkeep := (move_kinds h hp hm).1
  have hgood := good_mono hkeep (h.good p hp)
  generalize hph : p.phase = ph0 at hm hgood
  have same {d : Path} {ph : Phase} (h1 : ∀ d', HasDir ⟨p.options, ph⟩ d' → d' = d) (h2 : HasDir p d) :
      ∀ d, HasDir ⟨p.options, ph⟩ d → HasDir p d ∨ (p.options.ephemeral = true → s.fs d = none) :=
    fun d' hd' => .inl (h1 d' hd' ▸ h2)
  cases hm with
  | @setup _ dir hg hw hd he =>
    refine ⟨⟨hw, hd⟩, fun _ _ hk => (nomatch hk), ?_⟩
    rintro d (hd | ⟨k, hd⟩ | ⟨k, hd⟩ | hd | ⟨k, hd⟩ | ⟨n, k, hd⟩) <;> cases hd
    exact .inr he
  | @custom dir k hk hv =>
    refine ⟨⟨hgood.1, hgood.2, hv, fun k' hk' => ?_⟩, fun _ _ hk => (nomatch hk), same ?_ (.inl hph)⟩
    · rw [hk] at hk'; exact Option.some.inj hk'
    · rintro d (hd | ⟨k, hd⟩ | ⟨k, hd⟩ | hd | ⟨k, hd⟩ | ⟨n, k, hd⟩) <;> cases hd; rfl
  | @found dir hk _ =>
    refine ⟨⟨hgood.1, hgood.2, hk⟩, fun _ _ hk => (nomatch hk), same ?_ (.inl hph)⟩
    rintro d (hd | ⟨k, hd⟩ | ⟨k, hd⟩ | hd | ⟨k, hd⟩ | ⟨n, k, hd⟩) <;> cases hd; rfl
  | @missing dir gen hk _ hv =>
    refine ⟨⟨hgood.1, hgood.2, hk, hv⟩, fun _ _ hk => (nomatch hk), same ?_ (.inl hph)⟩
    rintro d (hd | ⟨k, hd⟩ | ⟨k, hd⟩ | hd | ⟨k, hd⟩ | ⟨n, k, hd⟩) <;> cases hd; rfl
  | @create dir key hd =>
    refine ⟨hgood, ?_, same ?_ (.inr (.inl ⟨_, hph⟩))⟩
    · intro d k hk; cases hk; exact ⟨_, Fs.set_eq _ _ _⟩
    · rintro d (hd | ⟨k, hd⟩ | ⟨k, hd⟩ | hd | ⟨k, hd⟩ | ⟨n, k, hd⟩) <;> cases hd; rfl
  | @write dir key =>
    refine ⟨⟨hgood.1, hgood.2.1, hgood.2.2.1⟩, fun _ _ hk => (nomatch hk), same ?_ (.inr (.inr (.inl ⟨_, hph⟩)))⟩
    rintro d (hd | ⟨k, hd⟩ | ⟨k, hd⟩ | hd | ⟨k, hd⟩ | ⟨n, k, hd⟩) <;> cases hd; rfl
  | @read dir c k hc hk =>
    refine ⟨⟨hgood.1, hgood.2.1, (parseKey_iff.mp hk).2, fun k' hk' => ?_⟩, fun _ _ hk => (nomatch hk),
      same ?_ (.inr (.inr (.inr (.inl hph))))⟩
    · rw [hgood.2.2] at hk'; cases hk'
    · rintro d (hd | ⟨k, hd⟩ | ⟨k, hd⟩ | hd | ⟨k, hd⟩ | ⟨n, k, hd⟩) <;> cases hd; rfl
  | @makeDir dir key _ _ hd =>
    refine ⟨⟨hgood.1, hgood.2.1, hgood.2.2.1, hgood.2.2.2, rfl, hd⟩, fun _ _ hk => (nomatch hk),
      same ?_ (.inr (.inr (.inr (.inr (.inl ⟨_, hph⟩)))))⟩
    rintro d (hd | ⟨k, hd⟩ | ⟨k, hd⟩ | hd | ⟨k, hd⟩ | ⟨n, k, hd⟩) <;> cases hd; rfl
  | fail _ hg =>
    refine ⟨trivial, fun _ _ hk => (nomatch hk), ?_⟩
    rintro d (hd | ⟨k, hd⟩ | ⟨k, hd⟩ | hd | ⟨k, hd⟩ | ⟨n, k, hd⟩) <;> cases hd

theorem sound_step (sys : Sys) (s : State) (h : Sound sys s) (e : Event) : Sound sys (step sys s e) := by
  rcases step_cases sys s e with he | ⟨o, rfl, he⟩ | ⟨i, p, fs, ph, hi, he, hm⟩
  · rw [he]; exact h
  · rw [he]
    have none : ∀ d, ¬ HasDir ⟨o, .start⟩ d := by
      rintro d (hd | ⟨k, hd⟩ | ⟨k, hd⟩ | hd | ⟨k, hd⟩ | ⟨n, k, hd⟩) <;> cases hd
    refine ⟨?_, ?_, ?_⟩
    · intro p hp
      rcases List.mem_append.mp hp with hp | hp
      · exact h.good p hp
      · rw [List.mem_singleton.mp hp]; trivial
    · intro p hp
      rcases List.mem_append.mp hp with hp | hp
      · exact h.plain p hp
      · rw [List.mem_singleton.mp hp]; intro d k hk; cases hk
    · intro i j p q hp hq hne h1 h2 d hd
      rcases get_append hp with ⟨-, rfl⟩ | hp'
      · exact absurd hd (none d)
      · rcases get_append hq with ⟨-, rfl⟩ | hq'
        · exact none d
        · exact h.apart i j p q hp' hq' hne h1 h2 d hd
  · rw [he]
    have hpm := List.mem_of_getElem? hi
    have key : ((∀ q, s.fs q = some .dir → fs q = some .dir) ∧ (∀ q c, s.fs q = some (.file c) → ∃ c', fs q = some (.file c'))) ∧
        ph.Good sys fs p.options ∧ (∀ d k, ph = .write d k → ∃ c, fs (keyFile d) = some (.file c)) ∧
        (∀ d, HasDir ⟨p.options, ph⟩ d → HasDir p d ∨ (p.options.ephemeral = true → s.fs d = none)) := by
      rcases hm with ⟨name, gen, -, hm⟩ | ⟨n, crash, -, hm⟩
      · exact ⟨move_kinds h hpm hm, move_good h hpm hm⟩
      · have h1 := (halt_spec s.fs n crash p.phase).1
        have h2 := halt_kinds h hpm n crash
        rw [hm] at h1 h2
        simp only at h1
        refine ⟨h2, ?_, ?_, ?_⟩
        · rcases h1 with rfl | rfl <;> trivial
        · rcases h1 with rfl | rfl <;> intro d k hk <;> cases hk
        · rcases h1 with rfl | rfl <;>
            rintro d (hd | ⟨k, hd⟩ | ⟨k, hd⟩ | hd | ⟨k, hd⟩ | ⟨n, k, hd⟩) <;> cases hd
    obtain ⟨⟨k1, k2⟩, k3, k4, k5⟩ := key
    -- the moved process against another one
    have against : ∀ j q, s.procs[j]? = some q → j ≠ i → p.options.ephemeral = true → q.options.ephemeral = true →
        ∀ d, HasDir ⟨p.options, ph⟩ d → ¬ HasDir q d := by
      intro j q hj hne h1 h2 d hd hq
      rcases k5 d hd with hp | hn
      · exact h.apart i j p q hi hj (Ne.symm hne) h1 h2 d hp hq
      · have := (hasDir_good hq (h.good q (List.mem_of_getElem? hj))).2
        rw [hn h1] at this; cases this
    refine ⟨?_, ?_, ?_⟩
    · intro x hx
      rcases List.mem_or_eq_of_mem_set hx with hx | rfl
      · exact good_mono k1 (h.good x hx)
      · exact k3
    · intro x hx
      rcases List.mem_or_eq_of_mem_set hx with hx | rfl
      · intro d k hk
        obtain ⟨c, hc⟩ := h.plain x hx d k hk
        exact k2 _ _ hc
      · exact k4
    · intro a b x y hx hy hne h1 h2 d hd
      rcases get_set hx with ⟨rfl, rfl⟩ | ⟨hna, hx'⟩
      · rcases get_set hy with ⟨rfl, rfl⟩ | ⟨hnb, hy'⟩
        · exact absurd rfl hne
        · exact against b y hy' hnb h1 h2 d hd
      · rcases get_set hy with ⟨rfl, rfl⟩ | ⟨hnb, hy'⟩
        · intro hc
          exact against a x hx' hna h2 h1 d hc hd
        · exact h.apart a b x y hx' hy' hne h1 h2 d hd

theorem sound_run (sys : Sys) (es : List Event) : ∀ s : State, Sound sys s → Sound sys (run sys s es) := by
  induction es with
  | nil => exact fun s h => h
  | cons e es ih => exact fun s h => ih _ (sound_step sys s h e)

theorem sound_init (sys : Sys) (fs : Fs) : Sound sys ⟨fs, []⟩ := by
  constructor <;> simp

/-! ## Starts with a private key -/

/-- Such a process neither makes nor fills a key file. -/
def Phase.Plain (o : Options) (ph : Phase) : Prop := o.privateKey ≠ none → (∀ d k, ph ≠ .create d k) ∧ ∀ d k, ph ≠ .write d k

theorem good_plain {sys : Sys} {fs : Fs} {o : Options} {ph : Phase} (h : ph.Good sys fs o) : ph.Plain o := by
  intro ho
  refine ⟨?_, ?_⟩ <;> rintro d k rfl <;> exact ho h.2.2.1

theorem custom_step (sys : Sys) (s : State) (h : Sound sys s) (e : Event)
    (hall : ∀ p ∈ s.procs, p.options.privateKey ≠ none) : Grows s.fs (step sys s e).fs := by
  rcases step_cases sys s e with he | ⟨o, rfl, he⟩ | ⟨i, p, fs, ph, hi, he, hm⟩
  · rw [he]; exact Grows.refl _
  · rw [he]; exact Grows.refl _
  · rw [he]
    have hpm := List.mem_of_getElem? hi
    obtain ⟨hc, hw⟩ := good_plain (h.good p hpm) (hall p hpm)
    rcases hm with ⟨name, gen, -, hm⟩ | ⟨n, crash, -, hm⟩
    · generalize hph : p.phase = ph0 at hm
      cases hm with
      | setup hg _ _ _ => exact hg
      | custom _ _ => exact Grows.refl _
      | found _ _ => exact Grows.refl _
      | missing _ _ _ => exact Grows.refl _
      | create _ => exact absurd hph (hc _ _)
      | write => exact absurd hph (hw _ _)
      | read _ _ => exact Grows.refl _
      | makeDir hg _ => exact hg
      | fail _ hg => exact hg
    · rcases (halt_spec s.fs n crash p.phase).2 with h2 | ⟨d, k, hp, -⟩
      · rw [hm] at h2
        rw [show fs = s.fs from h2]; exact Grows.refl _
      · exact absurd hp (hw d k)

/-- Options never change. -/
theorem step_options (sys : Sys) (s : State) (e : Event) (P : Options → Prop) (h : ∀ p ∈ s.procs, P p.options)
    (he : ∀ o, e = .spawn o → P o) : ∀ p ∈ (step sys s e).procs, P p.options := by
  rcases step_cases sys s e with hc | ⟨o, rfl, hc⟩ | ⟨i, p, fs, ph, hi, hc, hm⟩ <;> rw [hc]
  · exact h
  · intro p hp
    rcases List.mem_append.mp hp with hp | hp
    · exact h p hp
    · rw [List.mem_singleton.mp hp]; exact he o rfl
  · intro x hx
    rcases List.mem_or_eq_of_mem_set hx with hx | rfl
    · exact h x hx
    · exact h p (List.mem_of_getElem? hi)

theorem custom_run (sys : Sys) (es : List Event) : ∀ s : State, Sound sys s → (∀ p ∈ s.procs, p.options.privateKey ≠ none) →
    (∀ o, .spawn o ∈ es → o.privateKey ≠ none) → Grows s.fs (run sys s es).fs := by
  induction es with
  | nil => exact fun s _ _ _ => Grows.refl _
  | cons e es ih =>
    intro s h hall hes
    refine (custom_step sys s h e hall).trans (ih _ (sound_step sys s h e) ?_ fun o ho => hes o (List.mem_cons_of_mem _ ho))
    exact step_options sys s e (fun o => o.privateKey ≠ none) hall fun o ho => hes o (ho ▸ List.mem_cons_self)

/-! ## Names of node directories -/

theorem hexBody_take (bs : Bytes) (n : Nat) : (hexBody digit bs).take (2 * n) = hexBody digit (bs.take n) := by
  induction bs generalizing n with
  | nil => simp [hexBody]
  | cons b bs ih =>
    cases n with
    | zero => simp [hexBody]
    | succ n =>
      rw [show 2 * (n + 1) = 2 * n + 1 + 1 from by omega]
      simp only [hexBody, List.take_succ_cons, ih]

theorem hexBody_inj {a b : Bytes} (h : hexBody digit a = hexBody digit b) : a = b := by
  have h1 := (Props.C44_roundtrip a).1
  have h2 := (Props.C44_roundtrip b).1
  unfold hexEncode at h1 h2
  rw [h, h2] at h1
  exact (Except.ok.inj h1).symm

theorem bytes_length (id : Id) : id.bytes.length = 32 := by simp [Id.bytes]

theorem hexBody_len (bs : Bytes) : (hexBody digit bs).length = 2 * bs.length := by
  induction bs with
  | nil => rfl
  | cons b bs ih => simp only [hexBody, List.length_cons, ih]; omega

theorem nodeDirName_iff (n m : Events.Network) (a b : Id) :
    nodeDirName n a = nodeDirName m b ↔ n = m ∧ a.bytes.take 4 = b.bytes.take 4 := by
  have hex : ∀ id : Id, ((hexBody digit id.bytes).take 8).length = 8 := by
    intro id
    rw [List.length_take, hexBody_len, bytes_length]; rfl
  constructor
  · intro h
    obtain ⟨h1, h2⟩ := List.append_inj' h (by rw [hex, hex])
    rw [show (8 : Nat) = 2 * 4 from rfl, hexBody_take, hexBody_take] at h2
    refine ⟨?_, hexBody_inj h2⟩
    revert h1
    cases n <;> cases m <;> decide
  · rintro ⟨rfl, h⟩
    unfold nodeDirName
    rw [show (8 : Nat) = 2 * 4 from rfl, hexBody_take, hexBody_take, h]

theorem nodeDirName_ne_key (n : Events.Network) (id : Id) : nodeDirName n id ≠ keyFileName := by
  have h1 : ∃ c t, nodeDirName n id = c :: t ∧ c ≠ 'u' := by
    cases n
    · exact ⟨'t', _, rfl, by decide⟩
    · exact ⟨'a', _, rfl, by decide⟩
    · exact ⟨'s', _, rfl, by decide⟩
  obtain ⟨c, t, h1, h2⟩ := h1
  have h3 : ∃ t', keyFileName = 'u' :: t' := ⟨"nsafe_private_key.hex".toList, by decide⟩
  obtain ⟨t', h3⟩ := h3
  rw [h1, h3]
  intro h
  exact h2 (List.cons.inj h).1

/-! ## A start that works -/

theorem wanted_dir {sys : Sys} {o : Options} {name : Name} {d : Path} (hw : ¬ (o.dataDir.isSome ∧ o.envVar.isSome))
    (hd : some d = if o.ephemeral then some (((o.dataDir.or o.envVar).getD sys.tempDir) ++ ["trin".toList, name])
      else (o.dataDir.or o.envVar).or sys.defaultDir)
    {fs : Fs} (hno : ∀ q c, q <+: d → fs q ≠ some (.file c)) (hfresh : o.ephemeral = true → fs d = none) :
    ∃ fs', setupDir sys fs o name = some (fs', .configure d) ∧ Grows fs fs' ∧ fs' d = some .dir ∧
      ∀ q, fs' q ≠ fs q → q <+: d := by
  unfold setupDir
  rw [if_neg (by simpa using hw)]
  simp only
  split
  · rename_i he
    rw [if_pos he] at hd
    have hd := Option.some.inj hd
    have hd2 : d = (o.dataDir.or o.envVar).getD sys.tempDir ++ [appName] ++ [name] := by rw [hd]; simp [appName]
    obtain ⟨fs1, h1⟩ := mkdirs_some (fs := fs) (p := (o.dataDir.or o.envVar).getD sys.tempDir ++ [appName]) (by
      intro q c hq
      exact hno q c (hq.trans (by rw [hd2]; exact List.prefix_append _ _)))
    obtain ⟨g1, g2, g3⟩ := mkdirs_spec h1
    have hn1 : fs1 d = none := by
      refine Classical.byContradiction fun hc => ?_
      have hp := g3 d (by rw [hfresh he]; exact hc)
      have := hp.length_le
      rw [hd2] at this
      simp at this
    simp only [h1, ← hd2, hn1]
    refine ⟨_, rfl, g1.trans (grows_set hn1), Fs.set_eq _ _ _, ?_⟩
    intro q hq
    by_cases hqd : q = d
    · rw [hqd]; exact List.prefix_refl _
    · rw [Fs.set_ne _ _ hqd] at hq
      exact (g3 q hq).trans (by rw [hd2]; exact List.prefix_append _ _)
  · rename_i he
    rw [if_neg he] at hd
    obtain ⟨fs1, h1⟩ := mkdirs_some hno
    obtain ⟨g1, g2, g3⟩ := mkdirs_spec h1
    simp only [← hd, h1]
    exact ⟨_, rfl, g1, g2, g3⟩

/-- Steps of a single process. -/
theorem run_step {sys : Sys} {fs fs' : Fs} {o : Options} {ph ph' : Phase} {name : Name} {gen : Bytes}
    (h : advance sys fs o name gen ph = some (fs', ph')) (es : List Event) :
    run sys ⟨fs, [⟨o, ph⟩]⟩ (.step 0 name gen :: es) = run sys ⟨fs', [⟨o, ph'⟩]⟩ es := by
  simp [run, step, h]

theorem run_done {sys : Sys} {fs : Fs} {o : Options} {d n : Path} {k : Bytes} {name : Name} {gen : Bytes} (m : Nat) :
    run sys ⟨fs, [⟨o, .running d n k⟩]⟩ (List.replicate m (.step 0 name gen)) = ⟨fs, [⟨o, .running d n k⟩]⟩ := by
  induction m with
  | zero => rfl
  | succ m ih =>
    rw [List.replicate_succ]
    simpa [run, step, advance] using ih

theorem make_node {sys : Sys} {fs : Fs} {o : Options} {d : Path} {k : Bytes} {name : Name} {gen : Bytes}
    (hd : ∀ q c, q <+: d → fs q ≠ some (.file c)) (hn : ∀ c, fs (nodeDir d o.network (sys.nodeId k)) ≠ some (.file c)) :
    ∃ fs', advance sys fs o name gen (.makeDir d k) = some (fs', .running d (nodeDir d o.network (sys.nodeId k)) k) ∧ Grows fs fs' := by
  obtain ⟨fs', h⟩ := mkdirs_some (fs := fs) (p := nodeDir d o.network (sys.nodeId k)) (by
    intro q c hq
    rcases List.prefix_concat_iff.mp hq with rfl | hq
    · exact hn c
    · exact hd q c hq)
  refine ⟨fs', ?_, (mkdirs_spec h).1⟩
  simp only [advance, h]

theorem keyFile_not_prefix (d : Path) : ¬ keyFile d <+: d := by
  intro h
  have := h.length_le
  simp only [keyFile, List.length_append, List.length_cons, List.length_nil] at this
  omega

theorem keyFile_ne_node (d : Path) (n : Events.Network) (id : Id) : nodeDir d n id ≠ keyFile d := by
  intro h
  have := (List.append_inj' h rfl).2
  exact nodeDirName_ne_key n id (List.cons.inj this).1

/-- From the data directory to the end. -/
theorem configure_runs {sys : Sys} {fs : Fs} {o : Options} {d : Path} {k gen : Bytes} {name : Name}
    (hd : ∀ q c, q <+: d → fs q ≠ some (.file c)) (hn : ∀ c, fs (nodeDir d o.network (sys.nodeId k)) ≠ some (.file c))
    (hk : (o.privateKey = some k ∧ sys.isKey k = true) ∨
      (o.privateKey = none ∧ ∃ c, fs (keyFile d) = some (.file c) ∧ parseKey sys c = some k) ∨
      (o.privateKey = none ∧ fs (keyFile d) = none ∧ gen = k ∧ sys.isKey k = true)) :
    ∃ fs', run sys ⟨fs, [⟨o, .configure d⟩]⟩ (List.replicate 5 (.step 0 name gen)) =
        ⟨fs', [⟨o, .running d (nodeDir d o.network (sys.nodeId k)) k⟩]⟩ ∧
      (o.privateKey = none → ∃ c, fs' (keyFile d) = some (.file c) ∧ parseKey sys c = some k) := by
  rcases hk with ⟨ho, hv⟩ | ⟨ho, c, hc, hp⟩ | ⟨ho, hc, rfl, hv⟩
  · obtain ⟨fs', h, hg⟩ := make_node (name := name) (gen := gen) hd hn
    refine ⟨fs', ?_, fun hc => by rw [ho] at hc; cases hc⟩
    rw [List.replicate_succ, run_step (ph' := .makeDir d k) (fs' := fs) (by simp [advance, ho, hv]), List.replicate_succ,
      run_step h, run_done]
  · obtain ⟨fs', h, hg⟩ := make_node (name := name) (gen := gen) hd hn
    refine ⟨fs', ?_, fun _ => ⟨c, hg.keep hc, hp⟩⟩
    rw [List.replicate_succ, run_step (ph' := .read d) (fs' := fs) (by simp [advance, ho, hc]), List.replicate_succ,
      run_step (ph' := .makeDir d k) (fs' := fs) (by simp [advance, hc, hp]), List.replicate_succ, run_step h, run_done]
  · have hset : ∀ (fs : Fs) (n : Node) (q : Path), q <+: d → (fs.set (keyFile d) n) q = fs q := by
      intro fs n q hq
      exact Fs.set_ne _ _ (by rintro rfl; exact keyFile_not_prefix d hq)
    generalize h1 : fs.set (keyFile d) (.file []) = fs1
    have e1 : fs1.content (keyFile d) = [] := by rw [← h1]; simp [Fs.content, Fs.set_eq]
    generalize h2 : fs1.set (keyFile d) (.file (hexEncode gen)) = fs2
    have e2 : fs2 (keyFile d) = some (.file (hexEncode gen)) := by rw [← h2]; exact Fs.set_eq _ _ _
    obtain ⟨fs', h, hg⟩ := make_node (sys := sys) (fs := fs2) (o := o) (d := d) (k := gen) (name := name) (gen := gen) (by
        intro q c hq
        rw [← h2, hset _ _ q hq, ← h1, hset _ _ q hq]
        exact hd q c hq) (by
        intro c
        rw [← h2, Fs.set_ne _ _ (keyFile_ne_node _ _ _), ← h1, Fs.set_ne _ _ (keyFile_ne_node _ _ _)]
        exact hn c)
    refine ⟨fs', ?_, fun _ => ⟨_, hg.keep e2, parse_encode hv⟩⟩
    rw [List.replicate_succ, run_step (ph' := .create d gen) (fs' := fs) (by simp [advance, ho, hc, hv]),
      List.replicate_succ, run_step (ph' := .write d gen) (fs' := fs1) (by simp [advance, hc, h1]),
      List.replicate_succ, run_step (ph' := .read d) (fs' := fs2) (by simp only [advance, e1, overwrite_full, h2]),
      List.replicate_succ, run_step (ph' := .makeDir d gen) (fs' := fs2) (by simp [advance, e2, parse_encode hv]),
      List.replicate_succ, run_step h]
    rfl

end Verif.DataDir
