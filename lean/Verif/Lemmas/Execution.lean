import Verif.Props.ExecutionSpec

/-! # Helper lemmas for the execution driver -/

namespace Verif.Execution

variable {Key Val : Type} [DecidableEq Key]

theorem writes_append (w : World Key Val) (xs ys : List (Write Key Val)) :
    w.writes (xs ++ ys) = (w.writes xs).writes ys := by
  simp [World.writes, List.foldl_append]

/-- After writing a list, each key has the last value written, or the old one. -/
theorem writes_value (xs : List (Write Key Val)) : ∀ (w : World Key Val) (k : Key),
    w.writes xs k = ((xs.reverse.find? (fun x => x.1 = k)).map (·.2)).getD (w k) := by
  induction xs with
  | nil => intro w k; rfl
  | cons x xs ih =>
    intro w k
    have : w.writes (x :: xs) k = (w.write x).writes xs k := rfl
    rw [this, ih, List.reverse_cons, List.find?_append]
    cases hf : xs.reverse.find? (fun x => x.1 = k) with
    | some y => simp
    | none =>
      by_cases hk : x.1 = k
      · simp [World.write, hk]
      · have hk' : ¬ k = x.1 := fun e => hk e.symm
        simp [World.write, hk, hk']

/-- Writing a list again over any part of it changes nothing. -/
theorem writes_over (w : World Key Val) (xs ys : List (Write Key Val)) (h : ∀ y ∈ ys, y ∈ xs) :
    (w.writes ys).writes xs = w.writes xs := by
  funext k
  rw [writes_value xs, writes_value xs, writes_value ys]
  cases hf : xs.reverse.find? (fun x => x.1 = k) with
  | some y => rfl
  | none =>
    cases hg : ys.reverse.find? (fun x => x.1 = k) with
    | none => rfl
    | some y =>
      have h1 := List.mem_of_find?_eq_some hg
      have h2 := List.find?_some hg
      rw [List.find?_eq_none] at hf
      exact absurd h2 (hf y (by rw [List.mem_reverse]; exact h y (by simpa using h1)))

theorem perFile_pos : 0 < perFile := by decide

attribute [local irreducible] perFile

/-! ## The manager -/

/-- The file in memory has blocks of the chain. -/
def Slice (chain : Nat → Block) (f : Nat × List Block) : Prop :=
  ∃ len, f.2 = (List.range len).map fun j => chain (f.1 * perFile + j)

def Manager.Ok (chain : Nat → Block) (m : Manager) : Prop := ∀ f, m.current = some f → Slice chain f

theorem take_some {chain : Nat → Block} {m m' : Manager} {f : Nat × List Block} {b : Block} (hf : Slice chain f)
    (h : m.take f = (some b, m')) : b = chain m.next ∧ m' = { m with next := m.next + 1 } := by
  unfold Manager.take at h
  by_cases hi : f.1 = m.next / perFile
  · rw [if_pos hi] at h
    obtain ⟨len, hs⟩ := hf
    cases hg : f.2[m.next - f.1 * perFile]? with
    | none => rw [hg] at h; cases h
    | some x =>
      rw [hg] at h
      cases h
      rw [hs, List.getElem?_map] at hg
      cases hr : (List.range len)[m.next - f.1 * perFile]? with
      | none => rw [hr] at hg; cases hg
      | some y =>
        rw [hr] at hg
        rw [List.getElem?_range] at hr
        · cases hr
          have hle : f.1 * perFile ≤ m.next := by rw [hi]; exact Nat.div_mul_le_self _ _
          have e : f.1 * perFile + (m.next - f.1 * perFile) = m.next := by omega
          simp only [Option.map_some, Option.some.injEq] at hg
          rw [e] at hg
          exact ⟨hg.symm, rfl⟩
        · apply Classical.byContradiction
          intro hn
          rw [List.getElem?_eq_none (by simpa using hn)] at hr
          cases hr
  · rw [if_neg hi] at h
    cases h

theorem file_index {chain : Nat → Block} (hnum : ∀ n, (chain n).number = n) {i len : Nat} {b : Block} {bs : List Block}
    (h : b :: bs = (List.range len).map fun j => chain (i * perFile + j)) : b.number / perFile = i := by
  cases len with
  | zero => cases h
  | succ len =>
    rw [List.range_succ_eq_map, List.map_cons] at h
    cases h
    rw [hnum, Nat.add_zero]
    exact Nat.mul_div_cancel _ perFile_pos

theorem nextFile_some {chain : Nat → Block} (hnum : ∀ n, (chain n).number = n) {fetch : Nat → Option (List Block)}
    (hh : Honest chain fetch) {m m' : Manager} {f : Nat × List Block} (h : m.nextFile fetch = (some f, m')) :
    Slice chain f ∧ m'.next = m.next ∧ m.handle = some f.1 ∧ m'.handle = some (f.1 + 1) := by
  unfold Manager.nextFile at h
  cases hm : m.handle with
  | none => rw [hm] at h; cases h
  | some i =>
    rw [hm] at h
    simp only at h
    cases hf : fetch i with
    | none => rw [hf] at h; cases h
    | some l =>
      rw [hf] at h
      cases l with
      | nil => cases h
      | cons b bs =>
        cases h
        obtain ⟨len, _, hl⟩ := hh i _ hf
        have e := file_index hnum hl
        refine ⟨⟨len, ?_⟩, rfl, ?_, rfl⟩
        · show b :: bs = _
          rw [hl]; simp only [e]
        · simp only [e]

theorem refill_some {chain : Nat → Block} (hnum : ∀ n, (chain n).number = n) {fetch : Nat → Option (List Block)}
    (hh : Honest chain fetch) {m m' : Manager} {b : Block} (h : m.refill fetch = (some b, m')) :
    b = chain m.next ∧ m'.next = m.next + 1 ∧ m'.Ok chain := by
  unfold Manager.refill at h
  cases hn : m.nextFile fetch with
  | mk o m1 =>
    rw [hn] at h
    cases o with
    | none => cases h
    | some f =>
      simp only at h
      obtain ⟨hs, hx, _, _⟩ := nextFile_some hnum hh hn
      obtain ⟨h1, h2⟩ := take_some hs h
      subst h2
      refine ⟨?_, ?_, ?_⟩
      · rw [h1]; exact congrArg chain hx
      · exact congrArg (· + 1) hx
      · intro g hg; cases hg; exact hs

theorem getNext_some {chain : Nat → Block} (hnum : ∀ n, (chain n).number = n) {fetch : Nat → Option (List Block)}
    (hh : Honest chain fetch) {m m' : Manager} {b : Block} (hm : m.Ok chain) (h : m.getNext fetch = (some b, m')) :
    b = chain m.next ∧ m'.next = m.next + 1 ∧ m'.Ok chain := by
  unfold Manager.getNext at h
  cases hc : m.current with
  | none => rw [hc] at h; exact refill_some hnum hh h
  | some f =>
    rw [hc] at h
    simp only at h
    by_cases hi : f.1 = m.next / perFile
    · rw [if_pos hi] at h
      obtain ⟨h1, h2⟩ := take_some (hm f hc) h
      subst h2
      exact ⟨h1, rfl, hm⟩
    · rw [if_neg hi] at h
      exact refill_some hnum hh h

/-- The manager can give the next block when files are available. -/
def Manager.Ready (chain : Nat → Block) (m : Manager) : Prop :=
  (m.current = none ∧ m.handle = some (m.next / perFile)) ∨
  ∃ i, m.current = some (i, (List.range perFile).map fun j => chain (i * perFile + j)) ∧ m.handle = some (i + 1) ∧
    (m.next = i * perFile + perFile ∨ i = m.next / perFile)

theorem take_full {chain : Nat → Block} {m : Manager} (i : Nat) (hi : i = m.next / perFile) :
    m.take (i, (List.range perFile).map fun j => chain (i * perFile + j)) = (some (chain m.next), { m with next := m.next + 1 }) := by
  unfold Manager.take
  rw [if_pos hi]
  have hle : i * perFile ≤ m.next := by rw [hi]; exact Nat.div_mul_le_self _ _
  have hlt : m.next - i * perFile < perFile := by
    have := Nat.mod_lt m.next perFile_pos
    have e := Nat.div_add_mod m.next perFile
    rw [← hi, Nat.mul_comm] at e
    omega
  have e : i * perFile + (m.next - i * perFile) = m.next := by omega
  simp only [List.getElem?_map, List.getElem?_range hlt, Option.map_some, e]

theorem refill_full {chain : Nat → Block} (hnum : ∀ n, (chain n).number = n) {fetch : Nat → Option (List Block)}
    (ha : Available chain fetch) {m : Manager} (hh : m.handle = some (m.next / perFile)) :
    m.refill fetch = (some (chain m.next),
      { next := m.next + 1, current := some (m.next / perFile, (List.range perFile).map fun j => chain (m.next / perFile * perFile + j)),
        handle := some (m.next / perFile + 1) }) := by
  have hn : m.nextFile fetch = (some (m.next / perFile, (List.range perFile).map fun j => chain (m.next / perFile * perFile + j)),
      { m with handle := some (m.next / perFile + 1) }) := by
    unfold Manager.nextFile
    rw [hh]
    simp only
    have hf := ha (m.next / perFile)
    cases hl : (List.range perFile).map (fun j => chain (m.next / perFile * perFile + j)) with
    | nil =>
      have : perFile = 0 := by simpa using congrArg List.length hl
      have := perFile_pos
      omega
    | cons b bs =>
      rw [hl] at hf
      have e : b.number / perFile = m.next / perFile := file_index (len := perFile) hnum hl.symm
      rw [hf]
      simp only [e]
  unfold Manager.refill
  rw [hn]
  simp only
  rw [take_full (m := { m with handle := some (m.next / perFile + 1), current := _ }) (m.next / perFile) rfl]

theorem getNext_full {chain : Nat → Block} (hnum : ∀ n, (chain n).number = n) {fetch : Nat → Option (List Block)}
    (ha : Available chain fetch) {m : Manager} (hr : m.Ready chain) :
    ∃ m', m.getNext fetch = (some (chain m.next), m') ∧ m'.next = m.next + 1 ∧ m'.Ready chain := by
  have ready_next : ∀ (i : Nat), i = m.next / perFile → m.next + 1 = i * perFile + perFile ∨ i = (m.next + 1) / perFile := by
    intro i hi
    have hm := Nat.mod_lt m.next perFile_pos
    have e := Nat.div_add_mod m.next perFile
    rw [← hi, Nat.mul_comm] at e
    by_cases hx : m.next % perFile + 1 = perFile
    · left; omega
    · right
      have : m.next + 1 = (m.next % perFile + 1) + perFile * i := by rw [Nat.mul_comm perFile]; omega
      rw [this, Nat.add_mul_div_left _ _ perFile_pos, Nat.div_eq_of_lt (by omega)]
      omega
  rcases hr with ⟨hc, hh⟩ | ⟨i, hc, hh, hn | hn⟩
  · have e : m.getNext fetch = m.refill fetch := by unfold Manager.getNext; rw [hc]
    exact ⟨_, e.trans (refill_full hnum ha hh), rfl, .inr ⟨m.next / perFile, rfl, rfl, ready_next _ rfl⟩⟩
  · have hd : m.next / perFile = i + 1 := by
      rw [hn, show i * perFile + perFile = (i + 1) * perFile by rw [Nat.add_mul, Nat.one_mul]]
      exact Nat.mul_div_cancel _ perFile_pos
    have hne : ¬ i = m.next / perFile := by omega
    have e : m.getNext fetch = m.refill fetch := by unfold Manager.getNext; rw [hc]; simp only; rw [if_neg hne]
    exact ⟨_, e.trans (refill_full hnum ha (by rw [hh, hd])), rfl, .inr ⟨m.next / perFile, rfl, rfl, ready_next _ rfl⟩⟩
  · refine ⟨{ m with next := m.next + 1 }, ?_, rfl, .inr ⟨i, hc, hh, ready_next i hn⟩⟩
    have e : m.getNext fetch = m.take (i, (List.range perFile).map fun j => chain (i * perFile + j)) := by
      unfold Manager.getNext
      rw [hc]
      simp only
      rw [if_pos hn]
    exact e.trans (take_full i hn)

/-! ## The loop -/

/-- Before block `n` is executed, with `p` the position in the database. -/
structure Good (m : Machine Key Val) (chain : Nat → Block) (world : Nat → World Key Val) (lag : Nat)
    (d : Disk Key Val) (e : Executor Key Val) (n : Nat) : Prop where
  le : d.next ≤ n
  at' : AtPosition m chain world d
  mem : n = 0 ∨ d.world.writes e.pending = world n
  empty : n = 0 → e.pending = []
  h0 : d.hashes 0 = none
  hs : ∃ top, n ≤ top ∧ top ≤ n + lag ∧ ∀ i, 1 ≤ i → i < top → top ≤ i + serveWindow → d.hashes i = some (chain i).hash

variable {m : Machine Key Val} {chain : Nat → Block} {world : Nat → World Key Val} {lag k : Nat}

theorem genesis_world {w : World Key Val} (hv : ValidChain m chain world) {ys : List (Write Key Val)}
    (hy : ∀ y ∈ ys, y ∈ m.alloc) (h : w = (world 0).writes ys) :
    w.writes m.alloc = world 1 := by
  rw [hv.genesis, h]
  exact writes_over _ _ _ hy

/-- Executing the next block of a valid chain succeeds. -/
theorem execute_good (hv : ValidChain m chain world) (hk : LooksBack m k) (hkl : k + lag ≤ serveWindow)
    {d : Disk Key Val} {e : Executor Key Val} {n : Nat} (hg : Good m chain world lag d e n) :
    ∃ d' e', executeBlock m d e (chain n) = some (d', e') ∧ Good m chain world lag d' e' (n + 1) ∧ d'.next = d.next ∧
      d'.root = d.root := by
  unfold executeBlock
  rw [hv.number]
  by_cases hn : n = 0
  · subst hn
    rw [if_pos rfl]
    refine ⟨_, _, rfl, ?_, rfl, rfl⟩
    have hp : d.next = 0 := Nat.le_zero.mp hg.le
    have ha := hg.at'
    unfold AtPosition at ha
    rw [if_pos hp] at ha
    obtain ⟨ys, hy, hj⟩ := ha
    have hw : d.world.writes m.alloc = world 1 := genesis_world hv hy hj
    obtain ⟨top, h1, h2, h3⟩ := hg.hs
    refine ⟨by simp only [hp]; omega, ?_, .inr ?_, fun h => by omega, hg.h0, ?_⟩
    · unfold AtPosition
      rw [if_pos hp]
      exact ⟨m.alloc, fun _ h => h, by simp only; rw [hw, hv.genesis]⟩
    · rw [hg.empty rfl]; exact hw
    · refine ⟨max top 1, by omega, by omega, ?_⟩
      intro i hi1 hi2 hi3
      exact h3 i hi1 (by omega) (by omega)
  · rw [if_neg hn]
    have hw : d.world.writes e.pending = world n := hg.mem.resolve_left hn
    obtain ⟨changes, hx, hnext⟩ := hv.exec n (by omega)
    obtain ⟨top, h1, h2, h3⟩ := hg.hs
    have hex : m.exec (d.world.writes e.pending) d.hashes (chain n) = some (changes, (chain n).gasUsed) := by
      rw [hw, ← hx]
      apply hk
      intro i hi1 hi2
      rw [hv.number] at hi1 hi2
      unfold known
      by_cases h0 : i = 0
      · rw [if_pos h0, h0]; exact hg.h0
      · rw [if_neg h0]
        exact h3 i (by omega) (by omega) (by omega)
    rw [hex]
    simp only [if_true]
    refine ⟨_, _, rfl, ?_, rfl, rfl⟩
    refine ⟨Nat.le_succ_of_le hg.le, hg.at', .inr ?_, fun h => by omega, ?_, ?_⟩
    · show d.world.writes (e.pending ++ changes) = _
      rw [writes_append, hw, hnext]
    · show serveHash d.hashes (chain n) 0 = none
      unfold serveHash
      rw [hv.number]
      split
      · rfl
      · rw [if_neg (fun h => hn h.symm)]; exact hg.h0
    · refine ⟨max top (n + 1), by omega, by omega, ?_⟩
      intro i hi1 hi2 hi3
      show serveHash d.hashes (chain n) i = _
      unfold serveHash
      rw [hv.number]
      rw [if_neg (by intro ⟨ha, hb⟩; omega)]
      by_cases hin : i = n
      · rw [if_pos hin, hin]
      · rw [if_neg hin]
        exact h3 i hi1 (by omega) (by omega)

/-- Committing after block `n` of a valid chain succeeds. -/
theorem commit_good (hv : ValidChain m chain world) {d : Disk Key Val} {e : Executor Key Val} {n : Nat}
    (hg : Good m chain world lag d e (n + 1)) :
    ∃ d', commit m d e (chain n) = (true, d') ∧ d'.next = n + 1 ∧ Good m chain world lag d' { pending := [] } (n + 1) := by
  have hw : d.world.writes e.pending = world (n + 1) := hg.mem.resolve_left (by omega)
  unfold commit
  simp only [hw, hv.root, if_true]
  refine ⟨_, rfl, by simp only [hv.number], ?_⟩
  refine ⟨by simp only [hv.number]; exact Nat.le_refl _, ?_, .inr rfl, fun h => by omega, hg.h0, hg.hs⟩
  unfold AtPosition
  simp only [hv.number]
  rw [if_neg (by omega)]
  simp only [Nat.add_sub_cancel, and_self]

/-- What the loop keeps. -/
theorem loop_good (hv : ValidChain m chain world) (hk : LooksBack m k) (hkl : k + lag ≤ serveWindow) (last : Nat)
    (ts : List Tick) : ∀ (node : Node Key Val) (e : Executor Key Val), (∀ t ∈ ts, Honest chain t.fetch) →
    node.manager.Ok chain → Good m chain world lag node.disk e node.manager.next → node.manager.next ≤ last →
    ∀ o node', processLoop m last ts node e = (o, node') →
      node.disk.next ≤ node'.disk.next ∧
      (∃ e', Good m chain world lag node'.disk e' node'.manager.next) ∧
      node'.disk.next ≤ last + 1 ∧
      (o = .done → node'.manager.Ok chain ∧ node'.manager.next = node'.disk.next ∧ node.manager.next < node'.disk.next ∧
        Good m chain world lag node'.disk { pending := [] } node'.manager.next ∧
        ((∀ t ∈ ts, t.stop = false) → node'.disk.next = last + 1)) := by
  induction ts with
  | nil =>
    intro node e _ hm hg hlast o node' h
    cases h
    exact ⟨Nat.le_refl _, ⟨e, hg⟩, by have := hg.le; omega, fun h => by cases h⟩
  | cons t ts ih =>
    intro node e hh hm hg hlast o node' h
    unfold processLoop at h
    have hht : Honest chain t.fetch := hh t List.mem_cons_self
    cases hgn : node.manager.getNext t.fetch with
    | mk ob man =>
      rw [hgn] at h
      cases ob with
      | none =>
        cases h
        refine ⟨Nat.le_refl _, ?_, by have := hg.le; show node.disk.next ≤ _; omega, fun h => by cases h⟩
        -- the manager only moves when a block is given
        have : man.next = node.manager.next := by
          have key : ∀ (m1 : Manager) (f : Nat × List Block) (m2 : Manager), m1.take f = (none, m2) → m2 = m1 := by
            intro m1 f m2 hx
            unfold Manager.take at hx
            split at hx
            · split at hx
              · cases hx; rfl
              · cases hx
            · cases hx; rfl
          have keyr : node.manager.refill t.fetch = (none, man) → man.next = node.manager.next := by
            intro hx
            unfold Manager.refill Manager.nextFile at hx
            cases hh : node.manager.handle with
            | none => rw [hh] at hx; simp only at hx; cases hx; rfl
            | some i =>
              rw [hh] at hx
              simp only at hx
              cases hf : t.fetch i with
              | none => rw [hf] at hx; cases hx; rfl
              | some l =>
                rw [hf] at hx
                cases l with
                | nil => cases hx; rfl
                | cons b bs =>
                  simp only at hx
                  rw [key _ _ _ hx]
          unfold Manager.getNext at hgn
          cases hc : node.manager.current with
          | none => rw [hc] at hgn; exact keyr hgn
          | some f =>
            rw [hc] at hgn
            simp only at hgn
            split at hgn
            · rw [key _ _ _ hgn]
            · exact keyr hgn
        refine ⟨e, ?_⟩
        show Good m chain world lag node.disk e man.next
        rw [this]; exact hg
      | some b =>
        simp only at h
        obtain ⟨hb, hnext, hok⟩ := getNext_some hv.number hht hm hgn
        subst hb
        obtain ⟨d, e', hx, hg', hdn, hdr⟩ := execute_good hv hk hkl hg
        rw [hx] at h
        simp only at h
        obtain ⟨d', hc, hc1, hc2⟩ := commit_good hv hg'
        have hle := hg.le
        by_cases hend : (chain node.manager.next).number = last ∨ t.stop = true
        · rw [if_pos hend, hc] at h
          cases h
          refine ⟨by show node.disk.next ≤ d'.next; omega, ⟨{ pending := [] }, ?_⟩, by show d'.next ≤ _; omega, fun _ => ⟨hok, ?_, ?_, ?_, ?_⟩⟩
          · show Good m chain world lag d' _ man.next
            rw [hnext]; exact hc2
          · show man.next = d'.next
            rw [hnext, hc1]
          · show _ < d'.next; omega
          · show Good m chain world lag d' _ man.next
            rw [hnext]; exact hc2
          · intro hst
            show d'.next = last + 1
            rw [hv.number, hst t List.mem_cons_self] at hend
            rcases hend with hend | hend
            · omega
            · cases hend
        · rw [if_neg hend] at h
          rw [hv.number] at hend
          have hlt : man.next ≤ last := by
            have : ¬ node.manager.next = last := fun h => hend (.inl h)
            omega
          by_cases hearly : t.limits = true ∧ dosRange (chain node.manager.next).number = false
          · rw [if_pos hearly, hc] at h
            simp only at h
            obtain ⟨g1, g2, g3, g4⟩ := ih { disk := d', manager := man } _ (fun t ht => hh t (List.mem_cons_of_mem _ ht)) hok
              (by show Good m chain world lag d' _ man.next; rw [hnext]; exact hc2) hlt o node' h
            refine ⟨by have : d'.next ≤ node'.disk.next := g1; omega, g2, g3, fun ho => ?_⟩
            obtain ⟨a1, a2, a3, a4, a5⟩ := g4 ho
            refine ⟨a1, a2, ?_, a4, fun hst => a5 (fun t ht => hst t (List.mem_cons_of_mem _ ht))⟩
            have : man.next < node'.disk.next := a3
            omega
          · rw [if_neg hearly] at h
            obtain ⟨g1, g2, g3, g4⟩ := ih { disk := d, manager := man } e' (fun t ht => hh t (List.mem_cons_of_mem _ ht)) hok
              (by show Good m chain world lag d _ man.next; rw [hnext]; exact hg') hlt o node' h
            refine ⟨by have : d.next ≤ node'.disk.next := g1; omega, g2, g3, fun ho => ?_⟩
            obtain ⟨a1, a2, a3, a4, a5⟩ := g4 ho
            refine ⟨a1, a2, ?_, a4, fun hst => a5 (fun t ht => hst t (List.mem_cons_of_mem _ ht))⟩
            have : man.next < node'.disk.next := a3
            omega

/-! ## Processes -/

theorem range_good (hv : ValidChain m chain world) (hk : LooksBack m k) (hkl : k + lag ≤ serveWindow) {last : Nat}
    {ts : List Tick} {node : Node Key Val} (hh : ∀ t ∈ ts, Honest chain t.fetch) (hm : node.manager.Ok chain)
    (hmn : node.manager.next = node.disk.next) (hg : Good m chain world lag node.disk { pending := [] } node.disk.next)
    {o : Outcome} {node' : Node Key Val} (h : processRange m last ts node = (o, node')) :
    node.disk.next ≤ node'.disk.next ∧
      (∃ e' n', Good m chain world lag node'.disk e' n') ∧
      (o = .done → node'.manager.Ok chain ∧ node'.manager.next = node'.disk.next ∧ node.disk.next < node'.disk.next ∧
        Good m chain world lag node'.disk { pending := [] } node'.disk.next ∧ node'.disk.next ≤ last + 1 ∧
        ((∀ t ∈ ts, t.stop = false) → node'.disk.next = last + 1)) := by
  unfold processRange at h
  by_cases hl : node.disk.next ≤ last
  · rw [if_pos hl] at h
    obtain ⟨g1, ⟨e', g2⟩, g3, g4⟩ := loop_good hv hk hkl last ts node _ hh hm (by rw [hmn]; exact hg) (by omega) o node' h
    refine ⟨g1, ⟨e', _, g2⟩, fun ho => ?_⟩
    obtain ⟨a1, a2, a3, a4, a5⟩ := g4 ho
    exact ⟨a1, a2, by omega, by rw [← a2]; exact a4, g3, a5⟩
  · rw [if_neg hl] at h
    cases h
    exact ⟨Nat.le_refl _, ⟨_, _, hg⟩, fun ho => by cases ho⟩

theorem session_good (hv : ValidChain m chain world) (hk : LooksBack m k) (hkl : k + lag ≤ serveWindow)
    (calls : List (Nat × List Tick)) : ∀ (node : Node Key Val), HonestCalls chain calls → node.manager.Ok chain →
    node.manager.next = node.disk.next → Good m chain world lag node.disk { pending := [] } node.disk.next →
    node.disk.next ≤ (session m calls node).next ∧ ∃ e' n', Good m chain world lag (session m calls node) e' n' := by
  induction calls with
  | nil => intro node _ _ _ hg; exact ⟨Nat.le_refl _, _, _, hg⟩
  | cons c calls ih =>
    intro node hh hm hmn hg
    obtain ⟨last, ts⟩ := c
    unfold session
    cases hp : processRange m last ts node with
    | mk o node' =>
      obtain ⟨g1, g2, g3⟩ := range_good hv hk hkl (hh _ List.mem_cons_self) hm hmn hg hp
      cases o with
      | done =>
        obtain ⟨a1, a2, a3, a4, _⟩ := g3 rfl
        obtain ⟨b1, b2⟩ := ih node' (fun c hc => hh c (List.mem_cons_of_mem _ hc)) a1 a2 a4
        exact ⟨Nat.le_trans g1 b1, b2⟩
      | failed => exact ⟨g1, g2⟩
      | interrupted => exact ⟨g1, g2⟩

/-- What is left after a process that was not too far ahead. -/
theorem settled {d : Disk Key Val} {e : Executor Key Val} {n : Nat} (hg : Good m chain world lag d e n)
    (hlag : ∀ i, d.next + lag ≤ i → d.hashes i = none) : Good m chain world lag d { pending := [] } d.next := by
  refine ⟨Nat.le_refl _, hg.at', ?_, fun _ => rfl, hg.h0, ?_⟩
  · by_cases h0 : d.next = 0
    · exact .inl h0
    · right
      have := hg.at'
      unfold AtPosition at this
      rw [if_neg h0] at this
      exact this.1
  · obtain ⟨top, h1, h2, h3⟩ := hg.hs
    by_cases ht : 2 ≤ top
    · have hs := h3 (top - 1) (by omega) (by omega) (by simp [serveWindow]; omega)
      have hlt : top - 1 < d.next + lag := by
        apply Classical.byContradiction
        intro hn
        rw [hlag _ (by omega)] at hs
        cases hs
      have := hg.le
      exact ⟨top, by omega, by omega, h3⟩
    · have := hg.le
      exact ⟨d.next, Nat.le_refl _, by omega, fun i a b _ => by omega⟩

theorem history_good (hv : ValidChain m chain world) (hk : LooksBack m k) (hkl : k + lag ≤ serveWindow) {d : Disk Key Val}
    (h : History m chain lag d) : Good m chain world lag d { pending := [] } d.next := by
  induction h with
  | fresh emptyRoot =>
    refine ⟨Nat.le_refl _, ?_, .inl rfl, fun _ => rfl, rfl, 0, Nat.le_refl _, Nat.zero_le _, fun i a b _ => by omega⟩
    unfold AtPosition
    rw [if_pos (show (Disk.fresh emptyRoot : Disk Key Val).next = 0 from rfl)]
    exact ⟨[], fun _ h => (nomatch h), hv.start.symm⟩
  | genesis d j _ h0 ih =>
    refine ⟨Nat.le_refl _, ?_, .inl h0, fun _ => rfl, ih.h0, ih.hs⟩
    have ha := ih.at'
    unfold AtPosition at ha ⊢
    rw [if_pos h0] at ha
    rw [if_pos (by exact h0)]
    obtain ⟨ys, hy, hw⟩ := ha
    refine ⟨ys ++ m.alloc.take j, ?_, by simp only; rw [writes_append, ← hw]⟩
    intro y h
    rcases List.mem_append.mp h with h | h
    · exact hy y h
    · exact List.mem_of_mem_take h
  | process d calls _ hh hlag ih =>
    obtain ⟨_, e', n', hg⟩ := session_good hv hk hkl calls (restart d) hh (fun f hf => by cases hf) rfl ih
    exact settled hg hlag

/-! ## Progress -/

theorem loop_done (hv : ValidChain m chain world) (hk : LooksBack m k) (hkl : k + lag ≤ serveWindow) (last : Nat)
    (ts : List Tick) : ∀ (node : Node Key Val) (e : Executor Key Val), (∀ t ∈ ts, Available chain t.fetch) →
    node.manager.Ready chain → Good m chain world lag node.disk e node.manager.next → node.manager.next ≤ last →
    last + 1 ≤ node.manager.next + ts.length →
    ∃ node', processLoop m last ts node e = (.done, node') ∧ node'.manager.Ready chain := by
  induction ts with
  | nil => intro node e _ _ _ h1 h2; simp only [List.length_nil] at h2; omega
  | cons t ts ih =>
    intro node e ha hr hg hlast hlen
    unfold processLoop
    obtain ⟨man, hgn, hnext, hr'⟩ := getNext_full hv.number (ha t List.mem_cons_self) hr
    rw [hgn]
    simp only
    obtain ⟨d, e', hx, hg', hdn, hdr⟩ := execute_good hv hk hkl hg
    rw [hx]
    simp only
    obtain ⟨d', hc, hc1, hc2⟩ := commit_good hv hg'
    by_cases hend : (chain node.manager.next).number = last ∨ t.stop = true
    · rw [if_pos hend, hc]
      exact ⟨_, rfl, hr'⟩
    · rw [if_neg hend]
      rw [hv.number] at hend
      have hlt : man.next ≤ last := by
        have : ¬ node.manager.next = last := fun h => hend (.inl h)
        omega
      have hl' : last + 1 ≤ man.next + ts.length := by simp only [List.length_cons] at hlen; omega
      by_cases hearly : t.limits = true ∧ dosRange (chain node.manager.next).number = false
      · rw [if_pos hearly, hc]
        exact ih { disk := d', manager := man } _ (fun t ht => ha t (List.mem_cons_of_mem _ ht)) hr'
          (by show Good m chain world lag d' _ man.next; rw [hnext]; exact hc2) hlt hl'
      · rw [if_neg hearly]
        exact ih { disk := d, manager := man } e' (fun t ht => ha t (List.mem_cons_of_mem _ ht)) hr'
          (by show Good m chain world lag d _ man.next; rw [hnext]; exact hg') hlt hl'

theorem loop_stop (hv : ValidChain m chain world) (hk : LooksBack m k) (hkl : k + lag ≤ serveWindow) (last : Nat)
    (t : Tick) (post : List Tick) (ht : Available chain t.fetch) (hs : t.stop = true) (pre : List Tick) :
    ∀ (node : Node Key Val) (e : Executor Key Val), (∀ t ∈ pre, Available chain t.fetch ∧ t.stop = false) →
    node.manager.Ready chain → Good m chain world lag node.disk e node.manager.next → node.manager.next + pre.length ≤ last →
    ∃ node', processLoop m last (pre ++ t :: post) node e = (.done, node') ∧
      node'.disk.next = node.manager.next + pre.length + 1 := by
  induction pre with
  | nil =>
    intro node e _ hr hg _
    rw [List.nil_append]
    unfold processLoop
    obtain ⟨man, hgn, hnext, hr'⟩ := getNext_full hv.number ht hr
    rw [hgn]
    simp only
    obtain ⟨d, e', hx, hg', hdn, hdr⟩ := execute_good hv hk hkl hg
    rw [hx]
    simp only
    obtain ⟨d', hc, hc1, hc2⟩ := commit_good hv hg'
    rw [if_pos (.inr hs), hc]
    exact ⟨_, rfl, hc1⟩
  | cons p pre ih =>
    intro node e ha hr hg hlast
    rw [List.cons_append]
    unfold processLoop
    obtain ⟨man, hgn, hnext, hr'⟩ := getNext_full hv.number (ha p List.mem_cons_self).1 hr
    rw [hgn]
    simp only
    obtain ⟨d, e', hx, hg', hdn, hdr⟩ := execute_good hv hk hkl hg
    rw [hx]
    simp only
    obtain ⟨d', hc, hc1, hc2⟩ := commit_good hv hg'
    simp only [List.length_cons] at hlast ⊢
    have hend : ¬ ((chain node.manager.next).number = last ∨ p.stop = true) := by
      rw [hv.number, (ha p List.mem_cons_self).2]
      intro h
      rcases h with h | h
      · omega
      · cases h
    rw [if_neg hend]
    by_cases hearly : p.limits = true ∧ dosRange (chain node.manager.next).number = false
    · rw [if_pos hearly, hc]
      obtain ⟨node', h1, h2⟩ := ih { disk := d', manager := man } { pending := [] } (fun t ht => ha t (List.mem_cons_of_mem _ ht)) hr'
        (by show Good m chain world lag d' _ man.next; rw [hnext]; exact hc2) (by show man.next + _ ≤ _; omega)
      exact ⟨node', h1, by rw [h2]; show man.next + _ + 1 = _; omega⟩
    · rw [if_neg hearly]
      obtain ⟨node', h1, h2⟩ := ih { disk := d, manager := man } e' (fun t ht => ha t (List.mem_cons_of_mem _ ht)) hr'
        (by show Good m chain world lag d _ man.next; rw [hnext]; exact hg') (by show man.next + _ ≤ _; omega)
      exact ⟨node', h1, by rw [h2]; show man.next + _ + 1 = _; omega⟩

theorem available_honest {fetch : Nat → Option (List Block)} (h : Available chain fetch) : Honest chain fetch := by
  intro i bs hb
  rw [h i] at hb
  cases hb
  exact ⟨perFile, Nat.le_refl _, rfl⟩

/-- Whatever the blocks are, a call that succeeds leaves the state root it recorded. -/
theorem loop_root (last : Nat) (ts : List Tick) : ∀ (node : Node Key Val) (e : Executor Key Val) (node' : Node Key Val),
    processLoop m last ts node e = (.done, node') → m.root node'.disk.world = node'.disk.root := by
  induction ts with
  | nil => intro node e node' h; cases h
  | cons t ts ih =>
    intro node e node' h
    unfold processLoop at h
    cases hgn : node.manager.getNext t.fetch with
    | mk ob man =>
      rw [hgn] at h
      cases ob with
      | none => cases h
      | some b =>
        simp only at h
        cases hx : executeBlock m node.disk e b with
        | none => rw [hx] at h; cases h
        | some de =>
          rw [hx] at h
          obtain ⟨d, e'⟩ := de
          simp only at h
          cases hc : commit m d e' b with
          | mk ok d' =>
            rw [hc] at h
            split at h
            · cases ok with
              | false => cases h
              | true =>
                cases h
                unfold commit at hc
                simp only at hc
                split at hc
                · cases hc; assumption
                · cases hc
            · split at h
              · cases ok with
                | false => cases h
                | true => exact ih _ _ _ h
              · exact ih _ _ _ h

end Verif.Execution
