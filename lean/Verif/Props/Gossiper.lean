import Verif.Lemmas.Gossiper5

/-! # C87: the gossiper of the ephemeral history bridge -/

namespace Verif.Props
open Verif Verif.Gossiper Verif.Props.GossiperLife
open Verif.Census (OfferTrace)
open Verif.ContentKey (Legacy)

/-- **C87 (limits).** At any time at most `h` offers at the head of the chain are under way, and at most
`f` other offers. -/
theorem C87_limit (h f : Nat) (evs : List Event) (s : State) (log : Log)
    (hr : run (State.new h f) evs = some (s, log)) :
    (closed (isBundle evs) log ≤ sent (isBundle evs) log ∧
      sent (isBundle evs) log ≤ closed (isBundle evs) log + h) ∧
    (closed (isFinal evs) log ≤ sent (isFinal evs) log ∧
      sent (isFinal evs) log ≤ closed (isFinal evs) log + f) := by
  have I := run_inv hr
  have h1 := I.head
  have h2 := I.final
  have h3 := I.headFl
  have h4 := I.finalFl
  omega

/-- **C87 (who is offered).** For every task the peers are chosen at most once, they are asked in the
order of the choice, nobody else is asked, nobody is asked more often than they were chosen, and no
offer ends that was not sent. -/
theorem C87_asked (h f : Nat) (evs : List Event) (s : State) (log : Log)
    (hr : run (State.new h f) evs = some (s, log)) (t : Tid) :
    (chosen t log = [] ∧ offered t log = [] ∧ over t log = []) ∨
      ∃ asked todo flying, chosen t log = [asked ++ todo] ∧ (offered t log).map (·.1) = asked ∧
        (over t log ++ flying).Perm asked :=
  (run_inv hr).logok t

/-- **C87 (what is offered).** Every offer belongs to a call that was made, and offers the headers of
that bundle all together, or one body, receipts list or header of that call under its own key. -/
theorem C87_items (h f : Nat) (evs : List Event) (s : State) (log : Log)
    (hr : run (State.new h f) evs = some (s, log)) (τ : Nat) (t : Tid) (p : Id) (items : List Item)
    (ho : (τ, Effect.offer t p items) ∈ log) :
    ∃ c, (calls evs)[t.job]? = some c ∧ Right c t items :=
  (run_inv hr).right τ t p items ho

theorem content_sig {c : Call} {job : Job} (hsh : Shape c job) (hst : job.stage = .done) {i : Nat} {it : Item}
    (hc : content c i = some it) : ∃ t, job.tasks[i]? = some t ∧ t.items = [it] ∧ t.series = false := by
  have h1 := hsh.sigs
  rw [hst] at h1
  have h2 : (job.tasks.map sig)[i]? = some ([it], poolOf c, false) := by
    rw [h1]
    show ((itemsOf c).map fun i => ([i], poolOf c, false))[i]? = _
    rw [List.getElem?_map, itemsOf_get, hc]
    rfl
  rw [List.getElem?_map] at h2
  cases ht : job.tasks[i]? with
  | none => rw [ht] at h2; cases h2
  | some t =>
    rw [ht] at h2
    simp only [Option.map_some, sig, Option.some.injEq, Prod.mk.injEq] at h2
    exact ⟨t, rfl, h2.1, h2.2.2⟩

theorem finished_content {h f : Nat} {evs : List Event} {s : State} {log : Log} (I : Inv h f evs s log)
    {τ j : Nat} (hf : (τ, Effect.finished j) ∈ log) {c : Call} (hc : (calls evs)[j]? = some c) {i : Nat}
    {it : Item} (hi : content c i = some it) : Delivered log ⟨j, false, i⟩ [it] := by
  obtain ⟨job, hj, hst⟩ := I.fin τ j hf
  obtain ⟨c', hc', hsh⟩ := I.shape j job hj
  rw [hc] at hc'
  cases hc'
  obtain ⟨t, ht, h1, h2⟩ := content_sig hsh hst hi
  have h3 := I.task j job i t hj ht
  rw [h2] at h3
  have h4 := h3.delivered (hsh.idle (.inr hst) t (List.mem_of_getElem? ht))
  rw [h1] at h4
  exact h4

/-- **C87 (a bundle is gossiped).** When the call for a bundle returns, the series of its headers was
offered to all peers chosen for it, each body and each list of receipts was offered to all peers chosen
for it, and all of these offers are over. -/
theorem C87_bundle (h f : Nat) (evs : List Event) (s : State) (log : Log)
    (hr : run (State.new h f) evs = some (s, log)) (τ j : Nat) (blocks : List Block)
    (hc : (calls evs)[j]? = some (.bundle blocks)) (hf : (τ, Effect.finished j) ∈ log) :
    Delivered log ⟨j, true, 0⟩ (blocks.map fun b => ⟨.ephemeralOffer b.hash, b.header⟩) ∧
    ∀ (i : Nat) (b : Block), blocks[i]? = some b →
      Delivered log ⟨j, false, i⟩ [⟨.blockBody b.hash, b.body⟩] ∧
      Delivered log ⟨j, false, blocks.length + i⟩ [⟨.blockReceipts b.hash, b.receipts⟩] := by
  have I := run_inv hr
  obtain ⟨job, hj, hst⟩ := I.fin τ j hf
  refine ⟨I.past j job hj (by rw [hst]; rfl) blocks hc, ?_⟩
  intro i b hb
  have hlt : i < blocks.length := (List.getElem?_eq_some_iff.mp hb).1
  refine ⟨finished_content I hf hc ?_, finished_content I hf hc ?_⟩
  · simp only [content, hlt, if_true, hb, Option.map_some]
  · have : ¬ blocks.length + i < blocks.length := by omega
    simp only [content, this, if_false, Nat.add_sub_cancel_left, hb, Option.map_some]

/-- **C87 (headers of a final period).** When the call for blocks of a final period returns, all of them
could be built, and each header was offered by hash and by number, with the same value, to all peers
chosen for that key. -/
theorem C87_final (h f : Nat) (evs : List Event) (s : State) (log : Log)
    (hr : run (State.new h f) evs = some (s, log)) (τ j : Nat) (blocks : Option (List (Option Built)))
    (hc : (calls evs)[j]? = some (.final blocks)) (hf : (τ, Effect.finished j) ∈ log) :
    ∃ l : List Built, blocks = some (l.map some) ∧ ∀ (i : Nat) (b : Built), l[i]? = some b →
      Delivered log ⟨j, false, 2 * i⟩ [⟨.headerByHash b.hash, b.value⟩] ∧
      Delivered log ⟨j, false, 2 * i + 1⟩ [⟨.headerByNumber b.number, b.value⟩] := by
  have I := run_inv hr
  obtain ⟨job, hj, hst⟩ := I.fin τ j hf
  obtain ⟨c', hc', hsh⟩ := I.shape j job hj
  rw [hc] at hc'
  cases hc'
  obtain ⟨l, rfl, hno⟩ := hsh.whole (.inr hst)
  have hgap : l = (upToGap l).map some := by
    clear hc hf hj hst hsh I hr
    induction l with
    | nil => rfl
    | cons x xs ih =>
      cases x with
      | none => exact absurd List.mem_cons_self hno
      | some b =>
        rw [upToGap, List.map_cons, ← ih (fun h => hno (List.mem_cons_of_mem _ h))]
  refine ⟨upToGap l, by rw [← hgap], ?_⟩
  intro i b hb
  refine ⟨finished_content I hf hc ?_, finished_content I hf hc ?_⟩
  · have h1 : 2 * i / 2 = i := by omega
    have h2 : 2 * i % 2 = 0 := by omega
    simp [content, h1, hb]
  · have h1 : (2 * i + 1) / 2 = i := by omega
    have h2 : (2 * i + 1) % 2 = 1 := by omega
    simp [content, h1, h2, hb]

/-- **C87 (headers first).** Before the first body or receipts of a bundle is offered, its headers were
offered to all peers chosen for them and these offers were over, and that was at least two seconds
earlier. -/
theorem C87_order (h f : Nat) (evs : List Event) (s : State) (log : Log)
    (hr : run (State.new h f) evs = some (s, log)) (a b : Log) (τ j i : Nat) (p : Id) (items : List Item)
    (hl : log = a ++ (τ, Effect.offer ⟨j, false, i⟩ p items) :: b) (blocks : List Block)
    (hc : (calls evs)[j]? = some (.bundle blocks)) :
    Delivered a ⟨j, true, 0⟩ (blocks.map fun b => ⟨.ephemeralOffer b.hash, b.header⟩) ∧
    ∀ σ q r k, (σ, Effect.ended ⟨j, true, k⟩ q r) ∈ log → σ + 2000 ≤ τ := by
  have I := run_inv hr
  refine ⟨I.before a τ j i p items b hl blocks hc, ?_⟩
  intro σ q r k hx
  exact I.gap _ hx (τ, Effect.offer ⟨j, false, i⟩ p items) (by rw [hl]; simp) _ _ rfl rfl rfl rfl rfl

/-- **C87 (results).** The census is told of the result of every offer of a single item that is over, in
the order of their ends, with the length of the value, and of nothing else. -/
theorem C87_records (h f : Nat) (evs : List Event) (s : State) (log : Log)
    (hr : run (State.new h f) evs = some (s, log)) : recorded log = contentEnds evs log :=
  (run_inv hr).recs

/-- **C87 (how offers end).** When an offer ends, its result is what the peer answered, or a failure; it is given up for want
of an answer only when it was sent at least two minutes ago. -/
theorem C87_reply (h f : Nat) (evs : List Event) (j i k : Nat) (reply : Reply) (s : State) (log : Log)
    (hr : run (State.new h f) (evs ++ [.finish j i k reply]) = some (s, log)) :
    ∃ s0 before t p more, run (State.new h f) evs = some (s0, before) ∧ t.job = j ∧ t.task = i ∧
      log = before ++ (elapsed evs, Effect.ended t p (resultOf reply)) :: more ∧ (∀ u, over u more = []) ∧
      (reply = .timedOut → ∃ τ items, (τ, Effect.offer t p items) ∈ before ∧ τ + 120000 ≤ elapsed evs) := by
  obtain ⟨s1, l1, fx, h1, h2, rfl⟩ := run_snoc hr
  have T := run_timed h1
  simp only [Gossiper.step, finishStep] at h2
  split at h2
  · cases h2
  next t ht =>
  split at h2
  · cases h2
  next p since hk =>
  split at h2
  · cases h2
  next hlate =>
  cases h2
  refine ⟨s1, l1, ⟨j, t.series, i⟩, p, (if t.series then [] else [.record p (Gossiper.sizeOf t.items) reply.trace]).map (fun x => (s1.clock, x)),
    h1, rfl, rfl, ?_, ?_, ?_⟩
  · rw [List.map_cons, T.clock]
    cases reply <;> rfl
  · intro u
    cases t.series <;> simp [over]
  · intro hto
    obtain ⟨_, items, h3⟩ := T.flying j i t ht p since (List.mem_of_getElem? hk)
    refine ⟨since, items, h3, ?_⟩
    rw [← T.clock]
    have : ¬ s1.clock < since + serveBlockTimeout := fun h => hlate ⟨hto, h⟩
    simp only [serveBlockTimeout] at this
    omega

/-- **C87 (no offer is waited for forever).** Two minutes from now, or later, an offer that is not over yet can be given up. -/
theorem C87_gives_up (h f : Nat) (evs : List Event) (s : State) (log : Log)
    (hr : run (State.new h f) evs = some (s, log)) (t : Tid) (ht : (over t log).length < (offered t log).length)
    (d : Nat) (hd : 120000 ≤ d) : ∃ k, (run s [.tick d, .finish t.job t.task k .timedOut]).isSome = true := by
  obtain ⟨task, h1, h2, h3⟩ := (run_inv hr).underWay t ht
  have T := run_timed hr
  cases hfl : task.flying with
  | nil => exact absurd hfl h3
  | cons x xs =>
    obtain ⟨p, since⟩ := x
    have h4 := (T.flying _ _ _ h1 p since (by rw [hfl]; exact List.mem_cons_self)).1
    refine ⟨0, ?_⟩
    have h5 : ({ s with clock := s.clock + d } : State).task t.job t.task = some task := h1
    have h6 : ¬ s.clock + d < since + 120 * 1000 := by omega
    simp [run, Gossiper.step, finishStep, h5, hfl, serveBlockTimeout, h6]

/-- **C87 (the work is bounded).** Without new calls only so many things can happen, if at most `m` peers
are chosen for each task. -/
theorem C87_bounded (s : State) (m : Nat) : ∃ n, ∀ evs s' log, run s evs = some (s', log) →
    (∀ e ∈ evs, Works m e = true) → evs.countP isMove ≤ n :=
  ⟨work m s, fun evs s' log hr hw => Nat.le_trans (Nat.le_add_right _ _) (run_work m evs s s' log hr hw)⟩

/-- **C87 (no deadlock).** If both limits are positive, then in every reachable state in which some call
is not over something can happen, after some time. -/
theorem C87_progress (h f : Nat) (hh : 0 < h) (hf : 0 < f) (evs : List Event) (s : State) (log : Log)
    (hr : run (State.new h f) evs = some (s, log)) (job : Job) (hj : job ∈ s.jobs) (hn : ¬ JobOver job) :
    ∃ d e, isMove e = true ∧ Works 0 e = true ∧ (run s [.tick d, e]).isSome = true := by
  obtain ⟨j, hj⟩ := List.mem_iff_getElem?.mp hj
  obtain ⟨d, e, h1, h2, r, h3⟩ := (run_inv hr).progress hh hf hj hn
  refine ⟨d, e, h1, h2, ?_⟩
  simp [run, Gossiper.step.eq_def s (.tick d), h3]

/-- **C87 (the end).** If both limits are positive, then from every reachable state the running calls can
come to their end without new calls.
Missing: a limit of zero, which `--offer-limit 1` leads to, see `C87_limit_one_violated`. -/
theorem C87_ends_partial (h f : Nat) (hh : 0 < h) (hf : 0 < f) (evs : List Event) (s : State) (log : Log)
    (hr : run (State.new h f) evs = some (s, log)) :
    ∃ evs' s' log', (∀ e ∈ evs', Works 0 e = true) ∧ run s evs' = some (s', log') ∧
      ∀ job ∈ s'.jobs, JobOver job :=
  can_end hh hf _ evs s log hr (Nat.le_refl _)

/-- **C87 (violated: a limit of one).** The bridge takes half of `--offer-limit` for the headers of a
final period. With a limit of 1 that is none: no header is ever offered, and the call never returns once
a peer was chosen. -/
theorem C87_limit_one_violated (evs : List Event) (s : State) (log : Log)
    (hr : run (State.new (limits 1).1 (limits 1).2) evs = some (s, log)) :
    (∀ τ t p items, (τ, Effect.offer t p items) ∈ log → isFinal evs t.job = false) ∧
    ∀ (j i : Nat) (ps : List Id), isFinal evs j = true → chosen ⟨j, false, i⟩ log = [ps] → ps ≠ [] →
      ∀ τ, (τ, Effect.finished j) ∉ log := by
  have hno := no_permit (h := 1) hr
  refine ⟨hno, ?_⟩
  intro j i ps hj hch hps τ hfin
  have I := run_inv (h := 1) (f := 0) hr
  obtain ⟨job, hjob, hst⟩ := I.fin τ j hfin
  obtain ⟨c, hc, hsh⟩ := I.shape j job hjob
  have hd : Delivered log ⟨j, false, i⟩ [] ∨ ∃ it, Delivered log ⟨j, false, i⟩ [it] := by
    cases hci : content c i with
    | some it => exact .inr ⟨it, finished_content I hfin hc hci⟩
    | none =>
      exfalso
      -- a task that chose peers is one of the call
      have : ∃ x ∈ log, who x.2 = some ⟨j, false, i⟩ := by
        have : chosen ⟨j, false, i⟩ log ≠ [] := by rw [hch]; simp
        apply Classical.byContradiction
        intro hc'
        exact this (chosen_silent fun x hx hw => hc' ⟨x, hx, hw⟩)
      obtain ⟨x, hx, hw⟩ := this
      obtain ⟨c', items, h1, h2⟩ := I.mention x hx _ hw
      rw [hc] at h1
      cases h1
      obtain ⟨it, h3, -⟩ := h2
      simp only at h3
      rw [hci] at h3
      cases h3
  have hoff : offered ⟨j, false, i⟩ log ≠ [] := by
    rcases hd with ⟨ps', h1, h2, -⟩ | ⟨it, ps', h1, h2, -⟩ <;>
    · rw [hch] at h1
      cases h1
      rw [h2]
      intro h0
      exact hps (List.map_eq_nil_iff.mp h0)
  obtain ⟨y, hy⟩ := List.exists_mem_of_ne_nil _ hoff
  simp only [offered, List.mem_filterMap] at hy
  obtain ⟨x, hx, he⟩ := hy
  split at he
  · rename_i u p items hxe
    split at he
    · rename_i hu
      have := hno x.1 u p items (by rw [← hxe]; exact hx)
      rw [hu, hj] at this
      cases this
    · cases he
  · cases he

/-- **C87 (violated: a header that cannot be built).** If the header of the first block of a final period
cannot be built, then none of the headers of the call is ever offered, and the call does not return. -/
theorem C87_gap_violated (h f : Nat) (l : List (Option Built)) (evs : List Event) (s : State) (log : Log)
    (hr : run (State.new h f) (.final (some (none :: l)) :: evs) = some (s, log)) :
    (∀ τ t p items, (τ, Effect.offer t p items) ∈ log → t.job ≠ 0) ∧ ∀ τ, (τ, Effect.finished 0) ∉ log := by
  have I := run_inv hr
  have hc : (calls (.final (some (none :: l)) :: evs))[0]? = some (.final (some (none :: l))) := rfl
  refine ⟨?_, ?_⟩
  · intro τ t p items ho h0
    obtain ⟨c, h1, h2⟩ := I.right τ t p items ho
    rw [h0, hc] at h1
    cases h1
    unfold Right at h2
    split at h2
    · obtain ⟨-, b, h3, -⟩ := h2
      cases h3
    · obtain ⟨it, h3, -⟩ := h2
      simp [content, upToGap] at h3
  · intro τ hf
    obtain ⟨l', h1, -⟩ := C87_final h f _ s log hr τ 0 _ hc hf
    cases l' with
    | nil => simp at h1
    | cons x xs => simp at h1

/-- A block, and the same block as the bridge builds it later. -/
def gossipBlock : Block := ⟨7#256, [1, 2], [3], [4, 5, 6]⟩

/-- **C87 (violated: no peers).** When the census fails, the call for a bundle returns as usual although
nothing was offered to anybody. -/
theorem C87_census_violated : ∃ evs s log, run (State.new 64 32) evs = some (s, log) ∧
    calls evs = [.bundle [gossipBlock]] ∧ (2000, Effect.finished 0) ∈ log ∧ sent (fun _ => true) log = 0 := by
  refine ⟨[.bundle [gossipBlock], .choose 0 0 none, .rest 0, .tick 2000, .wake 0, .choose 0 0 none,
    .choose 0 1 none, .close 0], _, _, rfl, rfl, ?_, ?_⟩ <;> decide

/-- **C87 (violated: results of header series).** The result of an offer of a series of headers is not
recorded: a peer that fails it stays as it is for the census. -/
theorem C87_series_unrecorded_violated : ∃ evs s log, run (State.new 64 32) evs = some (s, log) ∧
    (0, Effect.ended ⟨0, true, 0⟩ 9#256 .failed) ∈ log ∧ recorded log = [] := by
  refine ⟨[.bundle [gossipBlock], .choose 0 0 (some [9#256]), .send 0 0, .finish 0 0 0 .error],
    _, _, rfl, ?_, ?_⟩ <;> decide

namespace GossiperEx

/-- One bundle of a block and one call for a final period, at the same time, with limits of two offers and
one offer. -/
def evs : List Event :=
  [.bundle [gossipBlock], .final (some [some ⟨5#256, 5, [9]⟩]), .choose 0 0 (some [1#256, 2#256, 3#256]),
   .send 0 0, .choose 1 0 (some [4#256]), .send 1 0, .choose 1 1 none, .send 0 0, .finish 0 0 1 .error,
   .send 0 0, .finish 0 0 1 (.answered (.success .accepted)), .tick 120000, .finish 0 0 0 .timedOut,
   .finish 1 0 0 (.answered (.success .declined)), .close 1, .rest 0, .tick 2000, .wake 0,
   .choose 0 1 (some [2#256]), .choose 0 0 (some [3#256]), .send 0 1, .send 0 0,
   .finish 0 1 0 (.answered (.success .accepted)), .finish 0 0 0 .error, .close 0]

def log : Log := (run (State.new 2 1) evs).elim [] (·.2)

-- the run exists, both calls return
example : (run (State.new 2 1) evs).isSome = true := by decide
example : (120000, Effect.finished 1) ∈ log ∧ (122000, Effect.finished 0) ∈ log := by decide
-- a third offer at the head has to wait
example : run (State.new 2 1) [.bundle [gossipBlock], .choose 0 0 (some [1#256, 2#256, 3#256]), .send 0 0,
    .send 0 0, .send 0 0] = none := by decide
-- no bodies before two seconds have passed
example : run (State.new 2 1) [.bundle [gossipBlock], .choose 0 0 none, .rest 0, .tick 1999, .wake 0]
    = none := by decide
example : sent (isBundle evs) log = 5 ∧ sent (isFinal evs) log = 1 := by decide
example : recorded log = [(4#256, 1, .success .declined), (2#256, 3, .success .accepted), (3#256, 1, .failed)] := by decide
example : Delivered log ⟨0, false, 1⟩ [⟨.blockReceipts 7#256, [4, 5, 6]⟩] :=
  ⟨[2#256], by decide, by decide, by decide⟩
-- with `--offer-limit 1` a header waits for ever
example : (run (State.new (limits 1).1 (limits 1).2)
    [.final (some [some ⟨5#256, 5, [9]⟩]), .choose 0 0 (some [4#256])]).isSome = true ∧
    run (State.new (limits 1).1 (limits 1).2)
    [.final (some [some ⟨5#256, 5, [9]⟩]), .choose 0 0 (some [4#256]), .send 0 0] = none := by decide
-- a block that could be built comes after one that could not
example : (run (State.new 2 1) [.final (some [none, some ⟨5#256, 5, [9]⟩])]).isSome = true := by decide
-- an offer is given up after two minutes, not before
def unanswered : List Event := [.bundle [gossipBlock], .choose 0 0 (some [1#256]), .tick 7, .send 0 0]
example : (run (State.new 2 1) (unanswered ++ [.tick 120000] ++ [.finish 0 0 0 .timedOut])).isSome = true ∧
    run (State.new 2 1) (unanswered ++ [.tick 119999] ++ [.finish 0 0 0 .timedOut]) = none := by decide
example : (run (State.new 2 1) unanswered).map (fun r => ((over ⟨0, true, 0⟩ r.2).length, (offered ⟨0, true, 0⟩ r.2).length)) =
    some (0, 1) := by decide

end GossiperEx

end Verif.Props
