import Verif.Props.ExecTracesSpec
import Verif.Lemmas.Execution
import Verif.Lemmas.DataDir
import Verif.Lemmas.BridgeCli
import Verif.Lemmas.ProviderText
import Verif.Lemmas.Nimbus

/-! # Lemmas about the traces of `trin-execution` -/

namespace Verif.ExecTraces
open Verif.Execution
open Verif.DataDir (Path Fs mkdir mkdirs mkdirsFrom)
open Verif.Props.ExecTracesSpec
open Verif.Props.BridgeSpec (Numeral)

/-! ## Texts -/

theorem splitOnce_iff (sep : Char) (s a b : List Char) : splitOnce sep s = some (a, b) ↔ sep ∉ a ∧ s = a ++ sep :: b := by
  induction s generalizing a with
  | nil => simp [splitOnce]
  | cons c cs ih =>
    unfold splitOnce
    by_cases hc : c = sep
    · rw [if_pos hc]
      constructor
      · intro h; cases h; simp [hc]
      · rintro ⟨h1, h2⟩
        cases a with
        | nil => cases h2; rfl
        | cons x xs => cases h2; exact absurd hc (by intro h; exact h1 (h ▸ List.mem_cons_self))
    · rw [if_neg hc]
      rw [Option.map_eq_some_iff]
      constructor
      · rintro ⟨⟨a', b'⟩, h1, h2⟩
        cases h2
        obtain ⟨h3, h4⟩ := (ih a').1 h1
        exact ⟨by simp [h3, Ne.symm hc], by simp [h4]⟩
      · rintro ⟨h1, h2⟩
        cases a with
        | nil => cases h2; exact absurd rfl hc
        | cons x xs =>
          cases h2
          exact ⟨(xs, b), (ih xs).2 ⟨fun h => h1 (List.mem_cons_of_mem _ h), rfl⟩, rfl⟩

theorem parse_iff (s : List Char) (t : ToTrace) : ToTrace.parse s = some t ↔ Text s t := by
  have e1 : "block:".toList = "block".toList ++ [':'] := by decide
  have n1 : ∀ x, "block:".toList ++ x ≠ "none".toList := by
    intro x h; have := congrArg List.head? h; simp at this
  have n2 : ∀ x, "block:".toList ++ x ≠ "all".toList := by
    intro x h; have := congrArg List.head? h; simp at this
  have n3 : ("all".toList) ≠ "none".toList := by decide
  unfold ToTrace.parse
  by_cases h1 : s = "none".toList
  · rw [if_pos h1]
    subst h1
    cases t with
    | none => simp [Text]
    | all => simp [Text]
    | block n =>
      simp only [Text, Option.some.injEq, reduceCtorEq, false_iff]
      rintro ⟨x, _, h⟩; exact n1 x h.symm
  rw [if_neg h1]
  by_cases h2 : s = "all".toList
  · rw [if_pos h2]
    subst h2
    cases t with
    | none => simp [Text]
    | all => simp [Text]
    | block n =>
      simp only [Text, Option.some.injEq, reduceCtorEq, false_iff]
      rintro ⟨x, _, h⟩; exact n2 x h.symm
  rw [if_neg h2]
  cases hs : splitOnce ':' s with
  | none =>
    simp only [reduceCtorEq, false_iff]
    cases t with
    | none => exact h1
    | all => exact h2
    | block n =>
      rintro ⟨x, _, h⟩
      have := (splitOnce_iff ':' s "block".toList x).2 ⟨by decide, by rw [h, e1]; simp⟩
      rw [hs] at this; cases this
  | some p =>
    obtain ⟨a, b⟩ := p
    simp only
    obtain ⟨h3, h4⟩ := (splitOnce_iff ':' s a b).1 hs
    by_cases ha : a = "block".toList
    · rw [if_pos ha, Option.map_eq_some_iff]
      subst ha
      constructor
      · rintro ⟨n, hn, rfl⟩
        exact ⟨b, (Verif.BridgeCli.parseU64_iff _ _).1 hn, by rw [h4, e1]; simp⟩
      · intro h
        cases t with
        | none => exact absurd h h1
        | all => exact absurd h h2
        | block n =>
          obtain ⟨x, hx, h⟩ := h
          rw [h4, e1] at h
          simp only [List.append_assoc, List.cons_append, List.nil_append, List.append_cancel_left_eq, List.cons.injEq, true_and] at h
          exact ⟨n, (Verif.BridgeCli.parseU64_iff _ _).2 (h ▸ hx), rfl⟩
    · rw [if_neg ha]
      simp only [reduceCtorEq, false_iff]
      cases t with
      | none => exact h1
      | all => exact h2
      | block n =>
        rintro ⟨x, _, h⟩
        have := (splitOnce_iff ':' s "block".toList x).2 ⟨by decide, by rw [h, e1]; simp⟩
        rw [hs] at this
        cases this
        exact ha rfl

theorem should_iff (c : ToTrace) (n : Nat) : c.should n = true ↔ Asks c n := by
  cases c <;> simp [ToTrace.should, Asks]

/-! ## Paths -/

theorem blockDir_eq (root : Path) (n : Nat) : blockDir root n = traceDir root n := by
  unfold blockDir traceDir
  rw [Verif.Nimbus.decimal_eq]

theorem txFile_eq (root : Path) (n : Nat) (h : Bytes) : txFile root n h = traceFile root n h := by
  unfold txFile traceFile
  rw [blockDir_eq, traceDir, Hex.hexEncode, Verif.Nimbus.hexBody_eq]
  simp

theorem txFile_length (root : Path) (n : Nat) (h : Bytes) : (txFile root n h).length = root.length + 3 := by
  simp [txFile, blockDir]

theorem blockDir_length (root : Path) (n : Nat) : (blockDir root n).length = root.length + 2 := by
  simp [blockDir]

theorem not_prefix {root : Path} {n n' : Nat} {h : Bytes} : ¬ txFile root n h <+: blockDir root n' := by
  intro hp
  have := hp.length_le
  rw [txFile_length, blockDir_length] at this
  omega

theorem txFile_inj {root : Path} {n n' : Nat} {h h' : Bytes} (e : txFile root n h = txFile root n' h') : n = n' ∧ h = h' := by
  unfold txFile at e
  obtain ⟨e1, e2⟩ := List.append_inj' e rfl
  constructor
  · unfold blockDir at e1
    have := (List.append_inj' e1 rfl).2
    simp only [List.cons.injEq, List.append_cancel_left_eq, true_and, and_true] at this
    exact Verif.Provider.decimal_inj this
  · simp only [List.cons.injEq, and_true, List.append_cancel_left_eq, Hex.hexEncode, List.cons_append, true_and,
      List.append_cancel_right_eq] at e2
    exact Verif.DataDir.hexBody_inj e2

/-! ## Changes of the file system -/

/-- Each path is as before, or a file with one of some texts, or a new directory. -/
def Ch (P : Path → List Char → Prop) (D : Path → Prop) (fs fs' : Fs) : Prop :=
  ∀ q, fs' q = fs q ∨ (∃ t, P q t ∧ fs' q = some (.file t)) ∨ (fs q = none ∧ fs' q = some .dir ∧ D q)

theorem Ch.refl {P : Path → List Char → Prop} {D : Path → Prop} (fs : Fs) : Ch P D fs fs := fun _ => .inl rfl

theorem Ch.trans {P : Path → List Char → Prop} {D : Path → Prop} {a b c : Fs} (h1 : Ch P D a b) (h2 : Ch P D b c) : Ch P D a c := by
  intro q
  rcases h2 q with h | h | ⟨h3, h4, h5⟩
  · rw [h]; exact h1 q
  · exact .inr (.inl h)
  · rcases h1 q with h | ⟨t, _, h⟩ | ⟨_, h, _⟩
    · exact .inr (.inr ⟨by rw [← h]; exact h3, h4, h5⟩)
    · rw [h] at h3; cases h3
    · rw [h] at h3; cases h3

theorem Ch.mono {P P' : Path → List Char → Prop} {D D' : Path → Prop} {a b : Fs} (h : Ch P D a b) (hP : ∀ q t, P q t → P' q t)
    (hD : ∀ q, D q → D' q) : Ch P' D' a b := by
  intro q
  rcases h q with h | ⟨t, h1, h2⟩ | ⟨h1, h2, h3⟩
  · exact .inl h
  · exact .inr (.inl ⟨t, hP q t h1, h2⟩)
  · exact .inr (.inr ⟨h1, h2, hD q h3⟩)

theorem mkdir_ch {fs fs' : Fs} {p : Path} (h : mkdir fs p = some fs') : Ch (fun _ _ => False) (· = p) fs fs' := by
  unfold mkdir at h
  split at h
  · cases h; exact Ch.refl _
  · cases h
  · rename_i hp
    cases h
    intro q
    by_cases hq : q = p
    · exact .inr (.inr ⟨by rw [hq]; exact hp, by simp [DataDir.Fs.set, hq], hq⟩)
    · exact .inl (by simp [DataDir.Fs.set, hq])

theorem mkdirsFrom_ch (rest : List DataDir.Name) : ∀ {fs fs' : Fs} {done : Path}, mkdirsFrom fs done rest = some fs' →
    Ch (fun _ _ => False) (· <+: done ++ rest) fs fs' := by
  induction rest with
  | nil =>
    intro fs fs' done h
    exact (mkdir_ch h).mono (fun _ _ h => h) (fun q hq => by rw [hq]; simp)
  | cons n rest ih =>
    intro fs fs' done h
    unfold mkdirsFrom at h
    cases hm : mkdir fs done with
    | none => rw [hm] at h; cases h
    | some fs1 =>
      rw [hm] at h
      have h2 := ih (show mkdirsFrom fs1 (done ++ [n]) rest = some fs' from h)
      exact ((mkdir_ch hm).mono (fun _ _ h => h) (fun q hq => by rw [hq]; exact List.prefix_append _ _)).trans
        (h2.mono (fun _ _ h => h) (fun q hq => by simpa using hq))

theorem mkdirs_ch {fs fs' : Fs} {p : Path} (h : mkdirs fs p = some fs') : Ch (fun _ _ => False) (· <+: p) fs fs' := by
  have := mkdirsFrom_ch p h
  simpa using this

theorem traceTx_ch (c : ToTrace) (root : Path) (n : Nat) (r : Round) (fs : Fs) (h : Bytes) :
    Ch (fun q t => Asks c n ∧ r.fault h = .none ∧ q = txFile root n h ∧ t = r.output h) (fun q => Asks c n ∧ q <+: blockDir root n)
      fs (traceTx c root n r fs h) := by
  unfold traceTx
  split
  · rename_i ha
    have ha := (should_iff c n).1 ha
    split
    · exact Ch.refl _
    · rename_i hd
      split
      · exact Ch.refl _
      · rename_i fs1 hm
        have h1 := (mkdirs_ch hm).mono (P' := fun q t => Asks c n ∧ r.fault h = .none ∧ q = txFile root n h ∧ t = r.output h)
          (D' := fun q => Asks c n ∧ q <+: blockDir root n) (fun _ _ h => h.elim) (fun q hq => ⟨ha, hq⟩)
        split
        · exact h1
        · rename_i hf
          split
          · exact h1
          · refine h1.trans ?_
            intro q
            by_cases hq : q = txFile root n h
            · refine .inr (.inl ⟨r.output h, ⟨ha, ?_, hq, rfl⟩, by simp [DataDir.Fs.set, hq]⟩)
              cases hx : r.fault h <;> simp_all
            · exact .inl (by simp [DataDir.Fs.set, hq])
  · exact Ch.refl _

theorem traceBlock_ch (c : ToTrace) (root : Path) (n : Nat) (r : Round) (hs : List Bytes) (fs : Fs) :
    Ch (fun q t => n ≠ 0 ∧ Asks c n ∧ ∃ h ∈ hs, r.fault h = .none ∧ q = txFile root n h ∧ t = r.output h)
      (fun q => n ≠ 0 ∧ Asks c n ∧ hs ≠ [] ∧ q <+: blockDir root n) fs (traceBlock c root n r hs fs) := by
  unfold traceBlock
  split
  · exact Ch.refl _
  · rename_i hn
    induction hs generalizing fs with
    | nil => exact Ch.refl _
    | cons h hs ih =>
      rw [List.foldl_cons]
      refine Ch.trans ((traceTx_ch c root n r fs h).mono ?_ ?_) ((ih (traceTx c root n r fs h)).mono ?_ ?_)
      · rintro q t ⟨a, b, d, e⟩; exact ⟨hn, a, h, List.mem_cons_self, b, d, e⟩
      · rintro q ⟨a, b⟩; exact ⟨hn, a, List.cons_ne_nil _ _, b⟩
      · rintro q t ⟨a, b, x, hx, y⟩; exact ⟨a, b, x, List.mem_cons_of_mem _ hx, y⟩
      · rintro q ⟨a, b, _, d⟩; exact ⟨a, b, List.cons_ne_nil _ _, d⟩

/-! ## What is in the way -/

theorem clear_iff (root : Path) (fs : Fs) : Clear root fs ↔
    (∀ n q text, q <+: blockDir root n → fs q ≠ some (.file text)) ∧ ∀ n hash, fs (txFile root n hash) ≠ some .dir := by
  unfold Clear
  simp only [blockDir_eq, txFile_eq]

theorem clear_ch {P : Path → List Char → Prop} {D : Path → Prop} {root : Path} {fs fs' : Fs} (h : Ch P D fs fs')
    (hP : ∀ q t, P q t → ∃ n h, q = txFile root n h) (hD : ∀ q, D q → ∃ n, q <+: blockDir root n) (hc : Clear root fs) :
    Clear root fs' := by
  rw [clear_iff] at hc ⊢
  refine ⟨fun n q text hq e => ?_, fun n hash e => ?_⟩
  · rcases h q with h | ⟨t, h1, _⟩ | ⟨_, h2, _⟩
    · exact hc.1 n q text hq (h ▸ e)
    · obtain ⟨n', h', hx⟩ := hP q t h1
      exact not_prefix (hx ▸ hq)
    · rw [h2] at e; cases e
  · rcases h (txFile root n hash) with h | ⟨t, _, h2⟩ | ⟨_, _, h3⟩
    · exact hc.2 n hash (h ▸ e)
    · rw [h2] at e; cases e
    · obtain ⟨n', hx⟩ := hD _ h3
      exact not_prefix hx

theorem traceTx_made {c : ToTrace} {root : Path} {n : Nat} {r : Round} {fs : Fs} {h : Bytes} (hc : Clear root fs) (ha : Asks c n)
    (hf : r.fault h = .none) : traceTx c root n r fs h (txFile root n h) = some (.file (r.output h)) := by
  have hc' := (clear_iff root fs).1 hc
  unfold traceTx
  rw [if_pos ((should_iff c n).2 ha), if_neg (by rw [hf]; nofun)]
  obtain ⟨fs1, hm⟩ := Verif.DataDir.mkdirs_some (fs := fs) (p := blockDir root n) (fun q t hq => hc'.1 n q t hq)
  rw [hm]
  simp only
  rw [if_neg (by rw [hf]; nofun)]
  have h1 := clear_ch (mkdirs_ch hm) (root := root) (fun _ _ h => h.elim) (fun q hq => ⟨n, hq⟩) hc
  have h2 := ((clear_iff root fs1).1 h1).2 n h
  cases hx : fs1 (txFile root n h) with
  | none => simp [DataDir.Fs.set]
  | some node =>
    cases node with
    | dir => exact absurd hx h2
    | file t => simp [DataDir.Fs.set]

theorem traceTx_clear {c : ToTrace} {root : Path} {n : Nat} {r : Round} {fs : Fs} {h : Bytes} (hc : Clear root fs) :
    Clear root (traceTx c root n r fs h) :=
  clear_ch (traceTx_ch c root n r fs h) (fun _ _ h' => ⟨n, h, h'.2.2.1⟩) (fun _ h' => ⟨n, h'.2⟩) hc

theorem traceBlock_clear {c : ToTrace} {root : Path} {n : Nat} {r : Round} {fs : Fs} {hs : List Bytes} (hc : Clear root fs) :
    Clear root (traceBlock c root n r hs fs) := by
  refine clear_ch (traceBlock_ch c root n r hs fs) ?_ ?_ hc
  · rintro q t ⟨_, _, h, _, _, e, _⟩; exact ⟨n, h, e⟩
  · rintro q ⟨_, _, _, e⟩; exact ⟨n, e⟩

theorem traceBlock_made {c : ToTrace} {root : Path} {n : Nat} {r : Round} {hs : List Bytes} {h : Bytes} (hn : n ≠ 0)
    (ha : Asks c n) (hf : r.fault h = .none) : ∀ {fs : Fs}, Clear root fs → h ∈ hs →
    traceBlock c root n r hs fs (txFile root n h) = some (.file (r.output h)) := by
  induction hs with
  | nil => intro fs _ h; cases h
  | cons x xs ih =>
    intro fs hc hm
    have e : traceBlock c root n r (x :: xs) fs = traceBlock c root n r xs (traceTx c root n r fs x) := by
      unfold traceBlock
      rw [if_neg hn, if_neg hn, List.foldl_cons]
    rw [e]
    by_cases hx : h ∈ xs
    · exact ih (traceTx_clear hc) hx
    · have : h = x := by
        rcases List.mem_cons.1 hm with h | h
        · exact h
        · exact absurd h hx
      subst this
      have h1 := traceTx_made (c := c) (root := root) (n := n) (r := r) hc ha hf
      rcases traceBlock_ch c root n r xs (traceTx c root n r fs h) (txFile root n h) with h2 | ⟨t, ⟨_, _, y, hy, _, ey, _⟩, _⟩ | ⟨h2, _, _⟩
      · rw [h2]; exact h1
      · exact absurd ((txFile_inj ey).2 ▸ hy) hx
      · rw [h1] at h2; cases h2

/-! ## The loop -/

section
variable {Key Val : Type} [DecidableEq Key]
variable (m : Machine Key Val) (txs : Block → List Bytes) (c : ToTrace) (root : Path) (last : Nat)

theorem loop_same (rs : List Round) : ∀ (n : Node Key Val) (e : Executor Key Val) (fs : Fs),
    (processLoop m txs c root last rs n e fs).1 = Execution.processLoop m last (rs.map (·.tick)) n e := by
  induction rs with
  | nil => intro n e fs; rfl
  | cons r rs ih =>
    intro n e fs
    unfold processLoop
    rw [List.map_cons]
    unfold Execution.processLoop
    cases hg : n.manager.getNext r.tick.fetch with
    | mk ob manager =>
      cases ob with
      | none => rfl
      | some b =>
        simp only
        cases hx : executeBlock m n.disk e b with
        | none => rfl
        | some p =>
          obtain ⟨d, e'⟩ := p
          simp only
          by_cases h1 : b.number = last ∨ r.tick.stop = true
          · rw [if_pos h1, if_pos h1]
            cases hc : commit m d e' b with
            | mk ok d' => cases ok <;> rfl
          · rw [if_neg h1, if_neg h1]
            by_cases h2 : r.tick.limits = true ∧ dosRange b.number = false
            · rw [if_pos h2, if_pos h2]
              cases hc : commit m d e' b with
              | mk ok d' =>
                cases ok
                · rfl
                · exact ih _ _ _
            · rw [if_neg h2, if_neg h2]
              exact ih _ _ _

/-- What may be written in the rounds from block `first`. -/
def Written (chain : Nat → Block) (rs : List Round) (first : Nat) (q : Path) (t : List Char) : Prop :=
  ∃ n hash r, first ≤ n ∧ n ≤ last ∧ n ≠ 0 ∧ Asks c n ∧ hash ∈ txs (chain n) ∧ rs[n - first]? = some r ∧
    r.fault hash = .none ∧ q = txFile root n hash ∧ t = r.output hash

def Made (chain : Nat → Block) (first : Nat) (q : Path) : Prop :=
  ∃ n, first ≤ n ∧ n ≤ last ∧ n ≠ 0 ∧ Asks c n ∧ txs (chain n) ≠ [] ∧ q <+: blockDir root n

variable {chain : Nat → Block}

theorem first_ch (hnum : ∀ n, (chain n).number = n) {first : Nat} (hl : first ≤ last) (r : Round) (rs : List Round) (hs : List Bytes)
    (hsub : ∀ h ∈ hs, h ∈ txs (chain first)) (fs : Fs) :
    Ch (Written txs c root last chain (r :: rs) first) (Made txs c root last chain first) fs
      (traceBlock c root (chain first).number r hs fs) := by
  rw [hnum]
  refine (traceBlock_ch c root first r hs fs).mono ?_ ?_
  · rintro q t ⟨h1, h2, h, h3, h4, h5, h6⟩
    exact ⟨first, h, r, Nat.le_refl _, hl, h1, h2, hsub h h3, by simp, h4, h5, h6⟩
  · rintro q ⟨h1, h2, h3, h4⟩
    refine ⟨first, Nat.le_refl _, hl, h1, h2, ?_, h4⟩
    cases hs with
    | nil => exact absurd rfl h3
    | cons x xs => exact List.ne_nil_of_mem (hsub x List.mem_cons_self)

theorem rest_ch {first : Nat} {r : Round} {rs : List Round} {fs fs' : Fs}
    (h : Ch (Written txs c root last chain rs (first + 1)) (Made txs c root last chain (first + 1)) fs fs') :
    Ch (Written txs c root last chain (r :: rs) first) (Made txs c root last chain first) fs fs' := by
  refine h.mono ?_ ?_
  · rintro q t ⟨n, h, r', h1, h2, h3, h4, h5, h6, h7⟩
    refine ⟨n, h, r', by omega, h2, h3, h4, h5, ?_, h7⟩
    rw [show n - first = (n - (first + 1)) + 1 by omega, List.getElem?_cons_succ]
    exact h6
  · rintro q ⟨n, h1, h2⟩
    exact ⟨n, by omega, h2⟩

theorem loop_ch (hnum : ∀ n, (chain n).number = n) (rs : List Round) : ∀ (n : Node Key Val) (e : Executor Key Val) (fs : Fs),
    HonestRounds chain rs → n.manager.Ok chain → n.manager.next ≤ last →
    Ch (Written txs c root last chain rs n.manager.next) (Made txs c root last chain n.manager.next) fs
      (processLoop m txs c root last rs n e fs).2 := by
  induction rs with
  | nil => intro n e fs _ _ _; exact Ch.refl _
  | cons r rs ih =>
    intro n e fs hh hok hl
    unfold processLoop
    cases hg : n.manager.getNext r.tick.fetch with
    | mk ob manager =>
      cases ob with
      | none => exact Ch.refl _
      | some b =>
        obtain ⟨hb, hn, hok'⟩ := getNext_some hnum (hh r List.mem_cons_self) hok hg
        subst hb
        have hh' : HonestRounds chain rs := fun r' hr' => hh r' (List.mem_cons_of_mem _ hr')
        simp only
        cases hx : executeBlock m n.disk e (chain n.manager.next) with
        | none => exact first_ch txs c root last hnum hl r rs _ (fun h hm => List.mem_of_mem_take hm) fs
        | some p =>
          obtain ⟨d, e'⟩ := p
          simp only
          have hf := first_ch txs c root last hnum hl r rs (txs (chain n.manager.next)) (fun h hm => hm) fs
          have next : ∀ (d' : Disk Key Val) (e'' : Executor Key Val), (chain n.manager.next).number ≠ last →
              Ch (Written txs c root last chain (r :: rs) n.manager.next) (Made txs c root last chain n.manager.next) fs
                (processLoop m txs c root last rs { disk := d', manager } e''
                  (traceBlock c root (chain n.manager.next).number r (txs (chain n.manager.next)) fs)).2 := by
            intro d' e'' hne
            rw [hnum] at hne
            have := ih { disk := d', manager } e'' (traceBlock c root (chain n.manager.next).number r (txs (chain n.manager.next)) fs)
              hh' hok' (by show manager.next ≤ last; omega)
            have this' := this
            simp only [hn] at this'
            exact hf.trans (rest_ch txs c root last this')
          by_cases h1 : (chain n.manager.next).number = last ∨ r.tick.stop = true
          · rw [if_pos h1]
            cases hc : commit m d e' (chain n.manager.next) with
            | mk ok d' => cases ok <;> exact hf
          · rw [if_neg h1]
            have hne : (chain n.manager.next).number ≠ last := fun h => h1 (.inl h)
            by_cases h2 : r.tick.limits = true ∧ dosRange (chain n.manager.next).number = false
            · rw [if_pos h2]
              cases hc : commit m d e' (chain n.manager.next) with
              | mk ok d' =>
                cases ok
                · exact hf
                · exact next d' _ hne
            · rw [if_neg h2]
              exact next d e' hne

theorem loop_made (hnum : ∀ n, (chain n).number = n) (rs : List Round) : ∀ (n n' : Node Key Val) (e : Executor Key Val) (fs fs' : Fs),
    HonestRounds chain rs → n.manager.Ok chain → n.manager.next ≤ last → Clear root fs →
    processLoop m txs c root last rs n e fs = ((.done, n'), fs') →
    ∀ k h, n.manager.next ≤ k → k < n'.disk.next → k ≠ 0 → Asks c k → h ∈ txs (chain k) →
    ∃ r, rs[k - n.manager.next]? = some r ∧ (r.fault h = .none → fs' (txFile root k h) = some (.file (r.output h))) := by
  induction rs with
  | nil => intro n n' e fs fs' _ _ _ _ h; cases h
  | cons r rs ih =>
    intro n n' e fs fs' hh hok hl hclear hp k h hk1 hk2 hk0 ha hm
    unfold processLoop at hp
    cases hg : n.manager.getNext r.tick.fetch with
    | mk ob manager =>
      rw [hg] at hp
      cases ob with
      | none => cases hp
      | some b =>
        obtain ⟨hb, hn, hok'⟩ := getNext_some hnum (hh r List.mem_cons_self) hok hg
        subst hb
        have hh' : HonestRounds chain rs := fun r' hr' => hh r' (List.mem_cons_of_mem _ hr')
        simp only at hp
        have hnow : k = n.manager.next → r.fault h = .none →
            traceBlock c root (chain n.manager.next).number r (txs (chain n.manager.next)) fs (txFile root k h) =
              some (.file (r.output h)) := by
          intro hk hf
          rw [hnum, ← hk]
          exact traceBlock_made hk0 ha hf hclear hm
        cases hx : executeBlock m n.disk e (chain n.manager.next) with
        | none => rw [hx] at hp; cases hp
        | some p =>
          obtain ⟨d, e'⟩ := p
          rw [hx] at hp
          simp only at hp
          have next : ∀ (d' : Disk Key Val) (e'' : Executor Key Val), (chain n.manager.next).number ≠ last →
              processLoop m txs c root last rs { disk := d', manager } e''
                (traceBlock c root (chain n.manager.next).number r (txs (chain n.manager.next)) fs) = ((.done, n'), fs') →
              ∃ r', (r :: rs)[k - n.manager.next]? = some r' ∧ (r'.fault h = .none → fs' (txFile root k h) = some (.file (r'.output h))) := by
            intro d' e'' hne hrest
            rw [hnum] at hne
            have hl' : manager.next ≤ last := by omega
            by_cases hk : k = n.manager.next
            · refine ⟨r, by simp [hk], fun hf => ?_⟩
              have hch := loop_ch m txs c root last hnum rs { disk := d', manager } e''
                (traceBlock c root (chain n.manager.next).number r (txs (chain n.manager.next)) fs) hh' hok' hl'
              rw [hrest] at hch
              rcases hch (txFile root k h) with h2 | ⟨t, ⟨k', h', r', h3, _, _, _, _, _, _, h4, _⟩, _⟩ | ⟨h2, _, _⟩
              · exact (show fs' (txFile root k h) = _ from h2).trans (hnow hk hf)
              · have := (txFile_inj h4).1
                have h3' : manager.next ≤ k' := h3
                omega
              · rw [hnow hk hf] at h2; cases h2
            · obtain ⟨r', h1, h2⟩ := ih { disk := d', manager } n' e'' _ fs' hh' hok' hl' (traceBlock_clear hclear) hrest k h
                (by show manager.next ≤ k; omega) hk2 hk0 ha hm
              refine ⟨r', ?_, h2⟩
              have h1' : rs[k - manager.next]? = some r' := h1
              rw [show k - n.manager.next = (k - manager.next) + 1 by omega, List.getElem?_cons_succ]
              exact h1'
          by_cases h1 : (chain n.manager.next).number = last ∨ r.tick.stop = true
          · rw [if_pos h1] at hp
            unfold commit at hp
            split at hp
            · rename_i heq
              simp only at heq
              split at heq
              · cases heq
                cases hp
                have hk2' : k < (chain n.manager.next).number + 1 := hk2
                rw [hnum] at hk2'
                have hk : k = n.manager.next := by omega
                exact ⟨r, by simp [hk], hnow hk⟩
              · cases heq
            · cases hp
          · rw [if_neg h1] at hp
            have hne : (chain n.manager.next).number ≠ last := fun h => h1 (.inl h)
            by_cases h2 : r.tick.limits = true ∧ dosRange (chain n.manager.next).number = false
            · rw [if_pos h2] at hp
              cases hc : commit m d e' (chain n.manager.next) with
              | mk ok d' =>
                rw [hc] at hp
                cases ok
                · cases hp
                · exact next d' _ hne hp
            · rw [if_neg h2] at hp
              exact next d e' hne hp

end

end Verif.ExecTraces
