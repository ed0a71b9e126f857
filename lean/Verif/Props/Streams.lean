import Verif.Lemmas.Streams

/-! # C90: uTP streams and their counters -/

namespace Verif.Props
open Verif Verif.Streams Verif.Props.StreamsSpec

/-- A stream to send data reports success exactly if the connection came about, every byte was written and the stream was
closed; nothing that other streams do makes a difference. -/
theorem C90_outbound (evs : List Event) (i : Nat) (a : Args) (f : Fate) (t : Task)
    (hs : (started evs)[i]? = some (a, f)) (ht : (run evs).tasks[i]? = some t) (hd : a.dir = .outbound) (r : Bool)
    (h : t.outboundResult = some r) :
    (r = true ↔ f.connected = true ∧ f.written = some a.data.length ∧ f.closed = true) := by
  have hI := inv evs
  have hg := hI.good t (List.mem_of_getElem? ht)
  have ha : (t.args, t.fate) = (a, f) := by
    rw [← hI.args, List.getElem?_map, ht] at hs
    simpa using hs
  simp only [Prod.mk.injEq] at ha
  obtain ⟨rfl, rfl⟩ := ha
  unfold Task.outboundResult at h
  unfold Good at hg
  rw [hd] at hg
  split at h
  · next hp =>
    rw [hp] at hg
    simp only [Option.some.injEq] at h
    subst h
    exact ⟨fun _ => ⟨hg.1, hg.2.1, hg.2.2.1⟩, fun _ => rfl⟩
  · next o x hne hp =>
    rw [hp] at hg
    simp only [Option.some.injEq] at h
    subst h
    refine ⟨fun h => absurd h (by simp), ?_⟩
    rintro ⟨h1, h2, h3⟩
    cases o with
    | success => exact (hne rfl).elim
    | failedConnection => simp only [h1] at hg; simp at hg
    | failedDataTx => exact absurd h2 hg.2.1
    | failedShutdown => simp only [h3] at hg; simp at hg
  · simp at h

/-- A stream to receive data gives what was read up to the end of the stream, unchanged, exactly if the connection came about
and reading did not fail; else it gives an error. -/
theorem C90_inbound (evs : List Event) (i : Nat) (a : Args) (f : Fate) (t : Task)
    (hs : (started evs)[i]? = some (a, f)) (ht : (run evs).tasks[i]? = some t) (hd : a.dir = .inbound) (r : Option Bytes)
    (h : t.inboundResult = some r) :
    (∀ data, r = some data ↔ f.connected = true ∧ f.read = some data) := by
  have hI := inv evs
  have hg := hI.good t (List.mem_of_getElem? ht)
  have ha : (t.args, t.fate) = (a, f) := by
    rw [← hI.args, List.getElem?_map, ht] at hs
    simpa using hs
  simp only [Prod.mk.injEq] at ha
  obtain ⟨rfl, rfl⟩ := ha
  unfold Task.inboundResult at h
  unfold Good at hg
  rw [hd] at hg
  intro data
  split at h
  · next o x hp =>
    rw [hp] at hg
    simp only [Option.some.injEq] at h
    subst h
    cases o with
    | success =>
      obtain ⟨h1, h2, _⟩ := hg
      exact ⟨fun e => ⟨h1, h2.trans e⟩, fun e => h2.symm.trans e.2⟩
    | failedConnection => rw [hg.2, hg.1]; simp
    | failedDataTx => rw [hg.2.2, hg.2.1]; simp
    | failedShutdown => exact absurd hg (by simp)
  · simp at h

/-- How a stream that has ended is counted: by the first thing that failed. Only streams to send data can fail to be
closed. -/
theorem C90_outcome (evs : List Event) (i : Nat) (a : Args) (f : Fate) (t : Task) (o : Outcome) (d : Option Bytes)
    (hs : (started evs)[i]? = some (a, f)) (ht : (run evs).tasks[i]? = some t) (he : t.phase = .ended o d) :
    let moved := if a.dir = .inbound then f.read.isSome = true else f.written = some a.data.length
    (o = .failedConnection ↔ f.connected = false) ∧
    (o = .failedDataTx ↔ f.connected = true ∧ ¬ moved) ∧
    (o = .failedShutdown ↔ f.connected = true ∧ moved ∧ a.dir = .outbound ∧ f.closed = false) ∧
    (o = .success ↔ f.connected = true ∧ moved ∧ (a.dir = .outbound → f.closed = true)) := by
  have hI := inv evs
  have hg := hI.good t (List.mem_of_getElem? ht)
  have ha : (t.args, t.fate) = (a, f) := by
    rw [← hI.args, List.getElem?_map, ht] at hs
    simpa using hs
  simp only [Prod.mk.injEq] at ha
  obtain ⟨rfl, rfl⟩ := ha
  unfold Good at hg
  rw [he] at hg
  cases hd : t.args.dir <;> cases o <;> simp only [hd] at hg <;> simp_all

/-- Every stream ends: after three answers of the socket at the latest its caller has a result. -/
theorem C90_ends (evs : List Event) (i : Nat) (t : Task) (ht : (run evs).tasks[i]? = some t) (h : 3 ≤ turns i 0 evs) :
    Ended t ∧ t.inboundResult ≠ none ∧ t.outboundResult ≠ none := by
  have he : Ended t := by
    apply left_zero
    rcases (inv evs).work i t ht with h' | h' <;> omega
  obtain ⟨o, d, hp⟩ := he
  refine ⟨⟨o, d, hp⟩, by simp [Task.inboundResult, hp], ?_⟩
  cases o <;> simp [Task.outboundResult, hp]

/-- What each stream asks the socket for: the connection with the ids and the peer it was given, from the side it was
given, then to read or to write all the data, once, and only then to close. -/
theorem C90_calls (evs : List Event) (i : Nat) (a : Args) (f : Fate) (hs : (started evs)[i]? = some (a, f)) :
    ∃ first rest, callsOf (run evs) i = first :: rest ∧
      first = (if a.side = .connect then Call.connect a.cid a.peer else .accept a.cid a.peer) ∧
      (a.dir = .inbound → rest <+: [.read]) ∧ (a.dir = .outbound → rest <+: [.write a.data, .close]) ∧
      (rest ≠ [] → f.connected = true) ∧ (.close ∈ rest → f.written = some a.data.length) := by
  have hI := inv evs
  have hs' := hs
  rw [← hI.args, List.getElem?_map] at hs'
  obtain ⟨t, ht, e⟩ := Option.map_eq_some_iff.mp hs'
  simp only [Prod.mk.injEq] at e
  obtain ⟨rfl, rfl⟩ := e
  have hg := hI.good t (List.mem_of_getElem? ht)
  rw [hI.calls i t ht]
  unfold made
  refine ⟨_, _, rfl, ?_, ?_, ?_, ?_, ?_⟩
  · unfold opening; cases t.args.side <;> rfl
  · intro hd
    rw [hd]
    simp only []
    split
    · exact List.nil_prefix
    · exact List.nil_prefix
    · exact List.prefix_refl _
  · intro hd
    rw [hd]
    simp only []
    split
    · exact List.nil_prefix
    · exact List.nil_prefix
    · exact ⟨[.close], rfl⟩
    · exact ⟨[.close], rfl⟩
    · exact List.prefix_refl _
  · intro hne
    unfold Good at hg
    rcases t with ⟨⟨dir, side, cid, peer, data⟩, ⟨con, rd, wr, cl⟩, phase⟩
    rcases phase with _ | _ | _ | ⟨o, d⟩
    · cases dir <;> simp at hne
    · exact hg
    · cases dir
      · simp at hg
      · exact hg.1
    · cases o <;> cases dir <;> simp at hne hg ⊢ <;> first | exact hg.1 | simp_all
  · intro hc
    unfold Good at hg
    rcases t with ⟨⟨dir, side, cid, peer, data⟩, ⟨con, rd, wr, cl⟩, phase⟩
    rcases phase with _ | _ | _ | ⟨o, d⟩
    · cases dir <;> simp at hc
    · cases dir <;> simp at hc
    · cases dir
      · simp at hg
      · exact hg.2
    · cases o <;> cases dir <;> simp at hc hg ⊢ <;> simp_all

/-- The gauge of active streams is at all times the number of streams of that direction that have not ended, and the
counters are the numbers of streams that ended so. -/
theorem C90_counters (evs : List Event) (d : Dir) :
    (run evs).counters.active d = (((run evs).tasks.filter fun t => t.args.dir == d && !decide (Ended t)).length : Nat) ∧
    ∀ o, (run evs).counters.outcomes d o = ((run evs).tasks.filter fun t => t.args.dir == d && EndedWith o t).length := by
  have hI := inv evs
  refine ⟨?_, ?_⟩
  · rw [hI.active, List.countP_eq_length_filter]; rfl
  · intro o
    rw [hI.outcomes, List.countP_eq_length_filter]; rfl

theorem countP_split (d : Dir) : ∀ l : List Task,
    l.countP (fun t => t.args.dir == d) = l.countP (isActive d) + l.countP (isEnded d .success)
      + l.countP (isEnded d .failedConnection) + l.countP (isEnded d .failedDataTx) + l.countP (isEnded d .failedShutdown)
  | [] => rfl
  | t :: l => by
    simp only [List.countP_cons]
    rw [countP_split d l]
    have : (if (t.args.dir == d) = true then 1 else 0 : Nat) = (if isActive d t = true then 1 else 0)
        + (if isEnded d .success t = true then 1 else 0) + (if isEnded d .failedConnection t = true then 1 else 0)
        + (if isEnded d .failedDataTx t = true then 1 else 0) + (if isEnded d .failedShutdown t = true then 1 else 0) := by
      have hne : ∀ (ph : Phase) (a : Args) (f : Fate), (∀ o x, ph ≠ .ended o x) → ¬ Ended ⟨a, f, ph⟩ := by
        intro ph a f h ⟨o, x, e⟩; exact h o x e
      rcases t with ⟨a, f, ph⟩
      cases hd : (a.dir == d) with
      | false => simp [isActive, isEnded, hd]
      | true =>
        rcases ph with _ | _ | _ | ⟨o, x⟩
        · simp [isActive, isEnded, hd, EndedWith, hne]
        · simp [isActive, isEnded, hd, EndedWith, hne]
        · simp [isActive, isEnded, hd, EndedWith, hne]
        · have : Ended ⟨a, f, .ended o x⟩ := ⟨o, x, rfl⟩
          cases o <;> simp [isActive, isEnded, hd, EndedWith, this]
    omega

/-- The line in the log adds up: active, successful and failed streams together are all the streams that were started, for
each direction (below 2^63 streams). -/
theorem C90_summary (evs : List Event) (hb : (started evs).length < 2 ^ 63) :
    ∃ active success failed : Nat × Nat × Nat, summary (run evs).counters = [active, success, failed] ∧
      (∀ x ∈ [active, success, failed], x.1 = x.2.1 + x.2.2) ∧
      active.2.1 + success.2.1 + failed.2.1 = ((started evs).filter fun p => p.1.dir == .inbound).length ∧
      active.2.2 + success.2.2 + failed.2.2 = ((started evs).filter fun p => p.1.dir == .outbound).length := by
  have hI := inv evs
  have hlen : (run evs).tasks.length < 2 ^ 63 := by
    rw [← hI.args, List.length_map] at hb; exact hb
  have hact : ∀ d, (BitVec.ofInt 64 ((run evs).counters.active d)).toNat = (run evs).tasks.countP (isActive d) := by
    intro d
    have hle : (run evs).tasks.countP (isActive d) ≤ (run evs).tasks.length := List.countP_le_length
    rw [hI.active d, BitVec.ofInt_natCast, BitVec.toNat_ofNat]
    apply Nat.mod_eq_of_lt
    omega
  have hdir : ∀ d, ((started evs).filter fun p => p.1.dir == d).length
      = (run evs).tasks.countP (fun t => t.args.dir == d) := by
    intro d
    rw [← hI.args, ← List.countP_eq_length_filter, List.countP_map]
    rfl
  refine ⟨_, _, _, rfl, ?_, ?_, ?_⟩
  · intro x hx
    simp only [List.mem_cons, List.not_mem_nil, or_false] at hx
    rcases hx with rfl | rfl | rfl <;> simp only [] <;> omega
  · rw [hdir, countP_split]
    simp only [hact, hI.outcomes]
    omega
  · rw [hdir, countP_split]
    simp only [hact, hI.outcomes]
    omega

/-! ## Examples -/

namespace StreamsEx

def out : Args := ⟨.outbound, .accept, (1, 2), 7, [10, 20]⟩
def inn : Args := ⟨.inbound, .connect, (3, 4), 8, []⟩
def fine : Fate := ⟨true, some [1, 2, 3], some 2, true⟩

/-- Two streams at once; one of them loses its connection while it closes. -/
def evs : List Event :=
  [.start out { fine with closed := false }, .start inn fine, .advance 0, .advance 1, .advance 1, .advance 0, .advance 0]

example : (run evs).tasks.map (·.phase) = [.ended .failedShutdown none, .ended .success (some [1, 2, 3])] := by decide +kernel

example : (run (evs.take 4)).counters.active .inbound = 1 ∧ (run (evs.take 4)).counters.active .outbound = 1 := by
  decide +kernel

example : (started evs)[0]? = some (out, { fine with closed := false }) ∧ turns 0 0 evs = 3 := by decide +kernel

example : callsOf (run evs) 0 = [.accept (1, 2) 7, .write [10, 20], .close] ∧ callsOf (run evs) 1 = [.connect (3, 4) 8, .read] := by
  decide +kernel

example : summary (run evs).counters = [(0, 0, 0), (1, 1, 0), (1, 0, 1)] := by decide +kernel

/-- A short write is a failure. -/
example : ((run [.start out { fine with written := some 1 }, .advance 0, .advance 0]).tasks.map Task.outboundResult) = [some false] := by
  decide +kernel

end StreamsEx

end Verif.Props
