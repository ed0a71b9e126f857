import Verif.Lemmas.StateBridge
import Verif.Props.TrieWalker
import Verif.Props.E2ss
import Verif.Props.Execution

/-! # C92: the state bridge as a process -/

namespace Verif.Props
open Verif.StateBridge Verif.Props.StateBridges
open Verif.TrieWalker (Item offered)
open Verif.Census (OfferTrace)

variable {P : Type}

/-- The items are taken in their order. Each is offered to the peers that the census selected for it, in their order, and to each
once; the next item is taken when all were sent. The process comes to its end only when all items were taken and all offers were
sent: normally if the gossip was complete, with a panic if it failed. -/
theorem C92_offered (limit : Nat) (items : List Item) (ok : Bool) (s : State P) (h : Reachable limit items ok s) :
    s.contents.map (·.item) <+: items ∧
    (∀ c ∈ s.contents, sentTo c <+: selected c) ∧ (∀ c ∈ s.contents.dropLast, sentTo c = selected c) ∧
    (∀ todo, s.main = .running todo → s.contents.map (·.item) ++ todo = items) ∧
    (s.main = .finished → ok = true ∧ s.contents.map (·.item) = items ∧ ∀ c ∈ s.contents, sentTo c = selected c) ∧
    (s.main = .panicked → ok = false ∧ s.contents.map (·.item) = items ∧ ∀ c ∈ s.contents, sentTo c = selected c) := by
  have hi := reachable_inv h
  have hm := hi.main
  refine ⟨?_, fun c hc => (hi.contents c hc).peers, hi.full, ?_, ?_, ?_⟩
  · split at hm
    · exact ⟨_, hm⟩
    · exact hm
    · rw [hm.2.1]; exact List.prefix_refl _
    · rw [hm.2.1]; exact List.prefix_refl _
  · intro todo e; rw [e] at hm; exact hm
  · intro e; rw [e] at hm; exact hm
  · intro e; rw [e] at hm; exact hm

/-- At most as many offers are in flight as the limit says; the permits are those that are left. -/
theorem C92_limit (limit : Nat) (items : List Item) (ok : Bool) (s : State P) (h : Reachable limit items ok s) :
    (inFlight s).length + s.permits = limit := by
  have hi := (reachable_inv h).permits
  have : (inFlight s).length = (s.contents.map Content.open).sum := by
    rw [inFlight, offers, List.filter_flatMap, List.length_flatMap]
    rfl
  omega

/-- The census is told about every offer that ended, once, with the size of the content, the time it took and the result; and
about nothing else. -/
theorem C92_recorded (limit : Nat) (items : List Item) (ok : Bool) (s : State P) (h : Reachable limit items ok s) :
    s.recorded.Perm (s.contents.flatMap toldOf) ∧
    ∀ o ∈ offers s, o.sent ≤ s.clock ∧ ∀ r t, o.result = some (r, t) → o.sent ≤ t ∧ t ≤ s.clock := by
  have hi := reachable_inv h
  refine ⟨hi.recorded, ?_⟩
  intro o ho
  obtain ⟨c, hc, ho⟩ := List.mem_flatMap.mp ho
  exact (hi.contents c hc).times o ho

/-- The end of an offer: what was answered is its result; an error and no answer in time are failures, and the time is two minutes.
Nothing else changes for any offer. -/
theorem C92_reply (ok : Bool) (s : State P) (todo : List Item) (hm : s.main = .running todo) (i k : Nat) (r : Reply)
    (c : Content P) (hc : s.contents[i]? = some c) (o : Offer P) (ho : c.offers[k]? = some o) (hn : o.result = none) :
    (step ok s (.reply i k r)).main = s.main ∧
    (r = .timeout ∧ s.clock < o.sent + 120000 → step ok s (.reply i k r) = s) ∧
    (¬ (r = .timeout ∧ s.clock < o.sent + 120000) → ∃ c', (step ok s (.reply i k r)).contents = s.contents.set i c' ∧
      c'.item = c.item ∧ c'.peers = c.peers ∧ c'.offers = c.offers.set k ⟨o.peer, o.sent, some (told r, s.clock)⟩) := by
  have e : step ok s (.reply i k r) = endOffer s i k r := by
    unfold step
    rw [hm]
  obtain ⟨peer, sent, result⟩ := o
  simp only at hn
  subst hn
  rw [e]
  unfold endOffer
  simp only [hc, ho]
  have ht : r.toTrace = told r := by cases r <;> rfl
  refine ⟨by split <;> rfl, ?_, ?_⟩
  · intro (h : r = .timeout ∧ s.clock < sent + serveBlockTimeout)
    rw [if_pos h]
  · intro (h : ¬ (r = .timeout ∧ s.clock < sent + serveBlockTimeout))
    rw [if_neg h]
    exact ⟨_, rfl, rfl, rfl, by rw [← ht]⟩

/-- The totals count the offers that ended by their results. -/
theorem C92_totals (limit : Nat) (items : List Item) (ok : Bool) (s : State P) (h : Reachable limit items ok s) :
    s.totals = count ((s.contents.flatMap toldOf).map (·.trace)) := by
  have hi := reachable_inv h
  rw [hi.totals]
  have hp := hi.recorded.map (·.trace)
  simp only [count, hp.countP_eq]

/-- The percentages that are printed: nothing without offers; otherwise they are what is expected, none is above 100. -/
theorem C92_percentages (t : Totals) :
    (t.report = none ↔ t.accepted + t.declined + t.failed = 0) ∧
    ∀ a d f, t.report = some (a, d, f) →
      a = 100 * t.accepted / (t.accepted + t.declined + t.failed) ∧ d = 100 * t.declined / (t.accepted + t.declined + t.failed) ∧
      f = 100 * t.failed / (t.accepted + t.declined + t.failed) ∧ a + d + f ≤ 100 ∧ 98 ≤ a + d + f := by
  have e : t.accepted + t.failed + t.declined = t.accepted + t.declined + t.failed := by omega
  unfold Totals.report
  simp only [e]
  split
  · next hz => exact ⟨by simp [hz], fun a d f h => by cases h⟩
  · next hz =>
    refine ⟨⟨fun h => (nomatch h), fun h => absurd h hz⟩, ?_⟩
    intro a d f h
    cases h
    refine ⟨rfl, rfl, rfl, ?_⟩
    generalize hn : t.accepted + t.declined + t.failed = n at hz ⊢
    have hpos : 0 < n := by omega
    have h1 := Nat.div_add_mod (100 * t.accepted) n
    have h2 := Nat.div_add_mod (100 * t.declined) n
    have h3 := Nat.div_add_mod (100 * t.failed) n
    have m1 := Nat.mod_lt (100 * t.accepted) hpos
    have m2 := Nat.mod_lt (100 * t.declined) hpos
    have m3 := Nat.mod_lt (100 * t.failed) hpos
    generalize 100 * t.accepted / n = a at *
    generalize 100 * t.declined / n = d at *
    generalize 100 * t.failed / n = f at *
    have hs : n * (a + d + f) + (100 * t.accepted % n + 100 * t.declined % n + 100 * t.failed % n) = n * 100 := by
      rw [Nat.mul_add, Nat.mul_add]
      omega
    constructor
    · exact Nat.le_of_mul_le_mul_left (c := n) (by omega) hpos
    · have : n * 97 < n * (a + d + f) := by omega
      have := Nat.lt_of_mul_lt_mul_left this
      omega

/-- The report of a content: it says how many of its offers were accepted, who declined with what and who failed, and it is printed
once, when all offers have ended; without peers it is never printed. -/
theorem C92_report (limit : Nat) (items : List Item) (ok : Bool) (s : State P) (h : Reachable limit items ok s) (c : Content P)
    (hc : c ∈ s.contents) :
    c.report.total = (selected c).length ∧
    c.report.accepted = ((resultsOf c).map (·.2)).countP isAccepted ∧
    c.report.declined.length + c.report.failed.length + c.report.accepted = (resultsOf c).length ∧
    (∀ p code, (p, code) ∈ c.report.declined ↔ (p, .success code) ∈ resultsOf c ∧ code ≠ .accepted) ∧
    (∀ p, p ∈ c.report.failed ↔ (p, .failed) ∈ resultsOf c) ∧
    (c.report.printed = 1 ↔ selected c ≠ [] ∧ Complete c) ∧ c.report.printed ≤ 1 := by
  have hi := (reachable_inv h).contents c hc
  have hr := hi.report
  have hcount := count_length ((resultsOf c).map (·.2))
  rw [List.length_map] at hcount
  have hcomplete : Complete c ↔ (selected c).length = (resultsOf c).length := by
    have h1 : (resultsOf c).length ≤ c.offers.length := List.length_filterMap_le _ _
    have h2 : c.offers.length ≤ (selected c).length := by simpa [sentTo] using hi.peers.length_le
    have h3 : (resultsOf c).length = (c.offers.filter fun o => o.result.isSome).length := by
      rw [resultsOf]
      generalize c.offers = l
      induction l with
      | nil => rfl
      | cons o l ih => cases hres : o.result <;> simp [hres, ih]
    constructor
    · rintro ⟨g1, g2⟩
      rw [← g1, h3, List.filter_eq_self.mpr g2]
      simp [sentTo]
    · intro g
      refine ⟨hi.peers.eq_of_length (by simp [sentTo]; omega), ?_⟩
      have : (c.offers.filter fun o => o.result.isSome).length = c.offers.length := by omega
      exact List.filter_eq_self.mp (List.filter_sublist.eq_of_length this)
  have hne : resultsOf c ≠ [] ∧ (selected c).length = (resultsOf c).length ↔
      selected c ≠ [] ∧ (selected c).length = (resultsOf c).length := by
    rw [Ne, Ne, ← List.length_eq_zero_iff, ← List.length_eq_zero_iff]
    omega
  refine ⟨hr.totalEq, hr.accepted, ?_, hr.declinedMem, hr.failedMem, ?_, ?_⟩
  · rw [hr.accepted, hr.declined, hr.failed]; omega
  · rw [hr.printed, hcomplete, ← hne]
    split
    · next hx => simp [hx]
    · next hx => simp only [hx, iff_false]; decide
  · rw [hr.printed]; split <;> omega

/-- A step of the loop waits only for a permit: with one, an offer is sent, an item is taken, or the loop is over. -/
theorem C92_waits (ok : Bool) (s : State P) (todo : List Item) (hm : s.main = .running todo) (census : Option (List P))
    (hp : 0 < s.permits) :
    (offers (step ok s (.main census))).length = (offers s).length + 1 ∨
    (step ok s (.main census)).contents.length = s.contents.length + 1 ∨ Ended (step ok s (.main census)) := by
  rw [step_main hm]
  have hnext : (nextItem ok s todo census).contents.length = s.contents.length + 1 ∨ Ended (nextItem ok s todo census) := by
    cases todo with
    | nil =>
      right
      intro todo
      unfold nextItem
      simp only
      split <;> simp
    | cons i todo => left; simp [nextItem]
  unfold stepMain
  split
  · exact .inr hnext
  · next c hc =>
    split
    · exact .inr hnext
    · next p hn =>
      left
      unfold sendNext
      rw [if_neg (by omega)]
      have := dropLast_concat_getLast hc
      simp only [offers]
      conv => rhs; rw [← this]
      simp
      omega

/-- Even if nobody ever answers, the loop can always come to its end (unless the limit is zero): an offer that is not answered
fails after two minutes, and gives its permit back.
Missing: the limit zero, see `C92_no_permits_violated`. -/
theorem C92_ends_partial (limit : Nat) (hl : 0 < limit) (items : List Item) (ok : Bool) (s : State P) (h : Reachable limit items ok s)
    (todo : List Item) (hm : s.main = .running todo) (census : Option (List P)) :
    ∃ es, (∀ e ∈ es, Silent census e) ∧ (run ok s es).main = if ok then .finished else .panicked :=
  ends hl census todo (reachable_inv h) hm

/-- With a limit of zero no offer is ever sent; the bridge stands still at the first content with a peer. -/
theorem C92_no_permits_violated (items : List Item) (ok : Bool) (s : State P) (h : Reachable 0 items ok s) :
    offers s = [] ∧ ∀ c ∈ s.contents.dropLast, selected c = [] := by
  have hi := reachable_inv h
  have hlim := C92_limit 0 items ok s h
  obtain ⟨es, rfl⟩ := h
  have key : ∀ (es : List (Event P)) (s : State P), s.permits = 0 → offers s = [] →
      (run ok s es).permits = 0 ∧ offers (run ok s es) = [] := by
    intro es
    induction es with
    | nil => exact fun s h1 h2 => ⟨h1, h2⟩
    | cons e es ih =>
      intro s h1 h2
      have : (step ok s e).permits = 0 ∧ offers (step ok s e) = [] := by
        unfold step
        split
        · next todo hm =>
          have hnext : ∀ census, (nextItem ok s todo census).permits = 0 ∧ offers (nextItem ok s todo census) = [] := by
            intro census
            cases todo with
            | nil => exact ⟨h1, h2⟩
            | cons i todo =>
              refine ⟨h1, ?_⟩
              simp only [offers, nextItem, List.flatMap_append]
              rw [show s.contents.flatMap (·.offers) = [] from h2]
              rfl
          cases e with
          | main census =>
            simp only
            unfold stepMain
            split
            · exact hnext census
            · split
              · exact hnext census
              · unfold sendNext
                rw [if_pos h1]
                exact ⟨h1, h2⟩
          | reply i k r =>
            simp only
            unfold endOffer
            split
            · exact ⟨h1, h2⟩
            · next c hc =>
              split
              · next peer sent ho =>
                have : (⟨peer, sent, none⟩ : Offer P) ∈ offers s :=
                  List.mem_flatMap.mpr ⟨c, List.mem_of_getElem? hc, List.mem_of_getElem? ho⟩
                rw [h2] at this
                cases this
              · exact ⟨h1, h2⟩
          | tick d => exact ⟨h1, h2⟩
          | signal => exact ⟨h1, h2⟩
        · exact ⟨h1, h2⟩
      exact ih _ this.1 this.2
  have hoff := (key es (init 0 items) rfl rfl).2
  refine ⟨hoff, ?_⟩
  intro c hc
  rw [← hi.full c hc]
  have : c.offers = [] := by
    rw [List.eq_nil_iff_forall_not_mem]
    intro o ho
    have : o ∈ offers (run ok (init 0 items) es) :=
      List.mem_flatMap.mpr ⟨c, List.dropLast_subset _ hc, ho⟩
    rw [hoff] at this
    cases this
  rw [sentTo, this]
  rfl

/-- After its end the process does nothing. -/
theorem C92_after_end (ok : Bool) (s : State P) (h : Ended s) (es : List (Event P)) : run ok s es = s := ended_run h es

/-- The process does not wait for its last offers: it can end normally while an offer is in flight, which then never ends, and is
neither counted nor reported. Here there is one item, for one peer. -/
theorem C92_cut_off_violated (limit : Nat) (hl : 0 < limit) (item : Item) (peer : P) :
    ∃ s : State P, Reachable limit [item] true s ∧ s.main = .finished ∧ (inFlight s).map (·.peer) = [peer] ∧
      s.totals = ⟨0, 0, 0⟩ ∧ ∀ es, run true s es = s := by
  refine ⟨_, ⟨[.main (some [peer]), .main none, .main none], rfl⟩, ?_⟩
  have h1 : step true (init limit [item]) (.main (some [peer])) =
      ⟨.running [], [.start item (some [peer])], limit, 0, ⟨0, 0, 0⟩, []⟩ := rfl
  have h2 : step true ⟨.running [], [.start item (some [peer])], limit, 0, ⟨0, 0, 0⟩, []⟩ (.main none) =
      ⟨.running [], [{ Content.start item (some [peer]) with offers := [⟨peer, 0, none⟩] }], limit - 1, 0, ⟨0, 0, 0⟩, []⟩ := by
    rw [step_main (todo := []) rfl]
    show sendNext _ _ _ _ = _
    unfold sendNext
    rw [if_neg (by simp only; omega)]
    rfl
  have h3 : run true (init limit [item]) [.main (some [peer]), .main none, .main none] =
      ⟨.finished, [{ Content.start item (some [peer]) with offers := [⟨peer, 0, none⟩] }], limit - 1, 0, ⟨0, 0, 0⟩, []⟩ := by
    unfold run
    simp only [List.foldl_cons, List.foldl_nil, h1, h2]
    rfl
  rw [h3]
  refine ⟨rfl, rfl, rfl, ?_⟩
  intro es
  exact ended_run (fun todo h => by cases h) es

/-- All bridges of a set together offer every item of every block, and each item is offered by one of them: what they are to offer,
taken together, is all the items of all batches up to the first that fails. -/
theorem C92_all_bridges (total : Nat) (ht : 1 ≤ total) (batches : List Batch) :
    (((List.range total).flatMap fun j => (plan ⟨j + 1, total⟩ batches).1).Perm
      ((batches.take ((batches.takeWhile (·.ok)).length + 1)).flatMap (·.items))) ∧
    ∀ b, (plan b batches).2 = batches.all (·.ok) := by
  have hflat : ∀ (f g : Nat → List Item) (l : List Nat), (l.flatMap fun j => f j ++ g j).Perm (l.flatMap f ++ l.flatMap g) := by
    intro f g l
    induction l with
    | nil => exact .refl _
    | cons x l ih =>
      simp only [List.flatMap_cons]
      refine (List.Perm.append_left _ ih).trans ?_
      simp only [List.append_assoc]
      refine List.Perm.append_left _ ?_
      rw [← List.append_assoc, ← List.append_assoc]
      exact List.Perm.append_right _ List.perm_append_comm
  induction batches with
  | nil =>
    refine ⟨?_, fun b => rfl⟩
    simp [plan]
  | cons x xs ih =>
    cases hx : x.ok with
    | true =>
      refine ⟨?_, ?_⟩
      · simp only [plan, hx, if_true]
        rw [List.takeWhile_cons_of_pos hx, List.length_cons, List.take_succ_cons, List.flatMap_cons]
        exact (hflat _ _ _).trans (List.Perm.append (C64_all_bridges total ht x.items) ih.1)
      · intro b
        simp only [plan, hx, if_true, List.all_cons, Bool.true_and]
        exact ih.2 b
    | false =>
      refine ⟨?_, fun b => by simp [plan, hx]⟩
      simp only [plan, hx, Bool.false_eq_true, if_false]
      rw [List.takeWhile_cons_of_neg (by simp [hx])]
      simp only [List.length_nil, Nat.zero_add, List.take_succ_cons, List.take_zero, List.flatMap_cons, List.flatMap_nil,
        List.append_nil]
      exact C64_all_bridges total ht x.items

/-! ## A range of blocks -/

section Range
open Verif.Execution
variable {Key Val : Type} [DecidableEq Key]

/-- For a range of blocks of a valid chain: what is gossiped are the states after the blocks from `start`, in their order, none left
out, none beyond `stop`; if the loop comes to its end, all of them. Past the merge the bridge refuses. -/
theorem C92_range (m : Machine Key Val) (chain : Nat → Block) (world : Nat → World Key Val) (hv : ValidChain m chain world)
    (k : Nat) (hk : LooksBack m k) (hkl : k ≤ 256) (emptyRoot start stop : Nat) (before : List Tick)
    (rounds : List (List Tick)) (hb : ∀ t ∈ before, Honest chain t.fetch) (hr : ∀ ts ∈ rounds, ∀ t ∈ ts, Honest chain t.fetch) :
    (launchRange m emptyRoot start stop before rounds = none ↔ 15537394 < stop) ∧
    ∀ l o, launchRange m emptyRoot start stop before rounds = some (l, o) →
      ∃ len, len ≤ stop + 1 - start ∧ gossiped l = expected chain world start len ∧ (o = .done → len = stop + 1 - start) := by
  have hkl' : k ≤ serveWindow := hkl
  have hfresh := between_fresh hv hk hkl' emptyRoot
  unfold launchRange
  split
  · next hs => exact ⟨⟨fun _ => hs, fun _ => rfl⟩, fun l o h => by cases h⟩
  · next hs =>
    have hs' : ¬ 15537394 < stop := hs
    split
    · next h0 =>
      cases hp : processRange m (start - 1) (noStop before) (restart (Disk.fresh emptyRoot)) with
      | mk o n =>
        cases o with
        | done =>
          have hn := between_range hv hk hkl' hfresh hb hp
          refine ⟨by simp [hs'], ?_⟩
          intro l o h
          have h := Option.some.inj h
          obtain ⟨len, e1, e2, e3⟩ := gossipLoop_good hv hk hkl' stop rounds n hn.1 hr
          rw [h] at e1 e3
          have : n.disk.next = start := by omega
          rw [this] at e1 e2 e3
          exact ⟨len, by omega, e1, e3⟩
        | failed =>
          refine ⟨by simp [hs'], ?_⟩
          intro l o h
          cases h
          exact ⟨0, by omega, rfl, fun h => by cases h⟩
        | interrupted =>
          refine ⟨by simp [hs'], ?_⟩
          intro l o h
          cases h
          exact ⟨0, by omega, rfl, fun h => by cases h⟩
    · next h0 =>
      refine ⟨by simp [hs'], ?_⟩
      intro l o h
      have h := Option.some.inj h
      obtain ⟨len, e1, e2, e3⟩ := gossipLoop_good hv hk hkl' stop rounds _ hfresh hr
      rw [h] at e1 e3
      have h0' : start = 0 := by omega
      have hz : (restart (Disk.fresh emptyRoot : Disk Key Val)).disk.next = 0 := rfl
      rw [hz] at e1 e2 e3
      subst h0'
      exact ⟨len, by omega, e1, e3⟩

/-- If all files can be downloaded and nothing interrupts it, the bridge gossips the whole range. -/
theorem C92_range_done (m : Machine Key Val) (chain : Nat → Block) (world : Nat → World Key Val) (hv : ValidChain m chain world)
    (k : Nat) (hk : LooksBack m k) (hkl : k ≤ 256) (emptyRoot start stop : Nat) (hstop : stop ≤ 15537394) (before : List Tick)
    (rounds : List (List Tick)) (hb : ∀ t ∈ before, Available chain t.fetch) (hbl : start ≤ before.length)
    (hr : ∀ ts ∈ rounds, ts ≠ [] ∧ ∀ t ∈ ts, Available chain t.fetch) (hrl : stop + 1 - start ≤ rounds.length) :
    ∃ l, launchRange m emptyRoot start stop before rounds = some (l, .done) ∧
      gossiped l = expected chain world start (stop + 1 - start) := by
  have hkl' : k ≤ serveWindow := hkl
  have hfresh := between_fresh hv hk hkl' emptyRoot
  have hready : (restart (Disk.fresh emptyRoot : Disk Key Val)).manager.Ready chain := .inl ⟨rfl, rfl⟩
  have main : ∃ l, launchRange m emptyRoot start stop before rounds = some (l, .done) := by
    unfold launchRange
    rw [if_neg (by show ¬ stop > 15537394; omega)]
    split
    · next h0 =>
      obtain ⟨n, h1, h2, h3, h4⟩ := range_done hv hk hkl' hfresh hready hb (last := start - 1) (Nat.zero_le _) (by
        show _ ≤ 0 + _
        omega)
      rw [h1]
      have := gossipLoop_done hv hk hkl' stop rounds n h2 h4 hr (by omega)
      exact ⟨(gossipLoop m stop rounds _).1, congrArg some (Prod.ext rfl this)⟩
    · next h0 =>
      have := gossipLoop_done hv hk hkl' stop rounds _ hfresh hready hr (by
        show _ ≤ 0 + _
        omega)
      exact ⟨(gossipLoop m stop rounds _).1, congrArg some (Prod.ext rfl this)⟩
  obtain ⟨l, hl⟩ := main
  obtain ⟨len, _, h2, h3⟩ := (C92_range m chain world hv k hk hkl emptyRoot start stop before rounds
    (fun t ht => available_honest (hb t ht)) (fun ts hts t ht => available_honest ((hr ts hts).2 t ht))).2 l .done hl
  exact ⟨l, hl, by rw [h2, h3 rfl]⟩

end Range

/-! ## A snapshot -/

section Snapshot
open Verif.E2ss Verif.EvmDb Verif.Props.Snapshot
open Verif.E2store (Res)

variable (c : Codecs) (lib : Lib) (Holds : Nodes → (Id → Option Bytes) → Prop)

/-- After any history of launches, for this and for other snapshots, whole or killed at any point while they prepared: what a launch
gossips for a snapshot is the state of a complete and consistent file that was downloaded for this block, now or in an earlier launch,
with the number of the block, and the block hash that is in the database for it. (If the files on the server are what they are
listed as, and the directory did not have a database at this block to begin with.) -/
theorem C92_snapshot (hl : lib.Sound Holds) (d0 : Disk) (ls : List Launch) (web : Web) (snapshot : UInt64)
    (h0 : d0.next ≠ snapshot + 1) (hh : ∀ l ∈ ls, HonestFiles c l.web) (hw : HonestFiles c web) (d' : Disk) (g : Gossip)
    (h : launchSnapshot c lib web snapshot (launches c lib d0 ls) = (d', .ok g)) :
    g.number = snapshot ∧ g.disk = d' ∧ FromFile c lib (ls.map (·.web) ++ [web]) snapshot d' ∧
      blockHash lib (d'.open lib) snapshot = some g.hash := by
  obtain ⟨h1, h2, h3, h4, h5⟩ := launchSnapshot_ok h
  have main : FromFile c lib (ls.map (·.web) ++ [web]) snapshot d' := by
    obtain ⟨hs, h6⟩ := prepare_ok h1
    rcases h6 with ⟨rfl, hn⟩ | ⟨file, hd, hf, hi⟩
    · have hk := launches_known hl ls d0 [] (.inl rfl : Known c lib d0 [] d0)
      rw [List.nil_append] at hk
      rcases hk with hk | hk | ⟨n, hk⟩
      · rw [hk] at hn; exact absurd hn h0
      · rw [hk] at hn; exact absurd hn.symm (add_one_ne hs)
      · obtain ⟨w, hw', file, hd, gs, g1, g2, g3, g4, g5, g6⟩ := hk
        obtain ⟨l, hl', rfl⟩ := List.mem_map.mp hw'
        have e1 := hh l hl' n file hd gs g1 g2
        rw [hn] at g6
        have e2 := add_one_inj g6
        have : n = snapshot := by rw [← e1, e2]
        subst this
        exact ⟨l.web, List.mem_append_left _ hw', file, hd, gs, g1, g2, g3, g4, g5, hn.trans g6⟩
    · have hk := importAll_from (c := c) hl hf
      rw [hi] at hk
      rcases hk with hk | hk
      · exact absurd hk h4
      · exact fromFile_mono hk (fun w hw => List.mem_append_right _ hw)
  have hnum : g.number = snapshot := by
    obtain ⟨w, hw', file, hd, gs, g1, g2, g3, g4, g5, g6⟩ := main
    have hhw : HonestFiles c w := by
      rcases List.mem_append.mp hw' with hw' | hw'
      · obtain ⟨l, hl', rfl⟩ := List.mem_map.mp hw'
        exact hh l hl'
      · rw [List.mem_singleton.mp hw']; exact hw
    rw [h3, g6, hhw snapshot file hd gs g1 g2]
    simp
  exact ⟨hnum, h2, main, hnum ▸ h5⟩

/-- A database that is at the block after the snapshot is used as it is; nothing is downloaded, nothing is changed. -/
theorem C92_reused (web web' : Web) (snapshot : UInt64) (hs : snapshot ≠ 0) (hmax : snapshot.toNat + 1 ≠ 2 ^ 64) (d : Disk)
    (hn : d.next = snapshot + 1) :
    (launchSnapshot c lib web snapshot d).1 = d ∧ launchSnapshot c lib web snapshot d = launchSnapshot c lib web' snapshot d := by
  have hp : ∀ w, prepare c lib w snapshot d = (d, .ok ()) := by
    intro w
    unfold prepare
    rw [if_neg hs, if_neg hmax, if_pos hn]
  refine ⟨?_, ?_⟩
  · rw [launchSnapshot_disk, hp]
  · unfold launchSnapshot
    rw [hp, hp]

/-- Otherwise the state is imported into a new database, whatever there was before; if the import succeeds and the hash of the
block is among the hashes that were downloaded, the state is gossiped. -/
theorem C92_imports (web : Web) (snapshot : UInt64) (hs : snapshot ≠ 0) (hmax : snapshot.toNat + 1 ≠ 2 ^ 64) (d : Disk)
    (hn : d.next ≠ snapshot + 1) (l : List UInt64) (hl : web.listing = some l) (hmem : snapshot ∈ l) (file : Bytes)
    (hf : web.download snapshot = some file) (d' : Disk) (hd : Header)
    (hi : importAll c lib web.nodes web.block file (Disk.fresh lib) = (d', .ok hd)) (hash : Id)
    (hb : blockHash lib (d'.open lib) hd.number = some hash) :
    launchSnapshot c lib web snapshot d = (d', .ok ⟨d', hd.number, hash⟩) := by
  have hp : prepare c lib web snapshot d = (d', .ok ()) := by
    unfold prepare
    rw [if_neg hs, if_neg hmax, if_neg hn, hl]
    simp only [List.contains_iff_mem.mpr hmem, hf, hi]
    rfl
  have hnext : d'.next = hd.number + 1 ∧ d'.next ≠ 0 := by
    have h0 : ¬ (Disk.fresh lib).next ≠ 0 := fun h => h rfl
    rw [importAll, if_neg h0] at hi
    split at hi
    · cases hi
    · cases hi
    · next db h' hst =>
      split at hi
      · cases hi
      · next hmx =>
        cases hh : importHashes lib web.block h'.number db.kv with
        | mk kv r =>
          rw [hh] at hi
          cases r with
          | err => cases hi
          | panic => cases hi
          | ok u =>
            cases hi
            exact ⟨rfl, add_one_ne hmx⟩
  have hsub : d'.next - 1 = hd.number := by rw [hnext.1]; simp
  unfold launchSnapshot
  rw [hp]
  simp only
  rw [if_neg hnext.2, hsub, hb]

/-- The database that is there is deleted before it is known whether there is a snapshot for this block: a launch with a block
number for which there is none, or while the server cannot be reached, leaves an empty database. -/
theorem C92_deletes_violated (web : Web) (snapshot : UInt64) (hs : snapshot ≠ 0) (hmax : snapshot.toNat + 1 ≠ 2 ^ 64) (d : Disk)
    (hn : d.next ≠ snapshot + 1) (hweb : web.listing = none ∨ (∃ l, web.listing = some l ∧ snapshot ∉ l) ∨ web.download snapshot = none) :
    launchSnapshot c lib web snapshot d = (Disk.fresh lib, .err) := by
  have hp : prepare c lib web snapshot d = (Disk.fresh lib, .err) := by
    unfold prepare
    rw [if_neg hs, if_neg hmax, if_neg hn]
    rcases hweb with h | ⟨l, h, h'⟩ | h
    · rw [h]
    · rw [h]
      simp only
      rw [if_pos (by simpa using h')]
    · split
      · rfl
      · split
        · rfl
        · rw [h]
  unfold launchSnapshot
  rw [hp]

/-- A launch whose database has the position of the snapshot but not the hash of its block panics, and changes nothing: so does every
launch after it, whatever the server has. -/
theorem C92_stuck_violated (snapshot : UInt64) (hs : snapshot ≠ 0) (hmax : snapshot.toNat + 1 ≠ 2 ^ 64) (d : Disk)
    (hn : d.next = snapshot + 1) (hb : blockHash lib (d.open lib) snapshot = none) (ls : List Launch)
    (hls : ∀ l ∈ ls, l.snapshot = snapshot) (web : Web) :
    launchSnapshot c lib web snapshot (launches c lib d ls) = (d, .panic) := by
  have hp : ∀ w, prepare c lib w snapshot d = (d, .ok ()) := by
    intro w
    unfold prepare
    rw [if_neg hs, if_neg hmax, if_pos hn]
  have hl : launches c lib d ls = d := by
    induction ls with
    | nil => rfl
    | cons l ls ih =>
      have he : l.after c lib d = d := by
        have hls' := hls l List.mem_cons_self
        unfold Launch.after
        split
        · rw [launchSnapshot_disk, hls', hp]
        · unfold killed
          rw [if_pos (.inr (.inr (hls' ▸ hn)))]
      show launches c lib (l.after c lib d) ls = d
      rw [he]
      exact ih fun x hx => hls x (List.mem_cons_of_mem _ hx)
  have hnz : d.next ≠ 0 := by rw [hn]; exact add_one_ne hmax
  have hsub : d.next - 1 = snapshot := by rw [hn]; simp
  rw [hl]
  unfold launchSnapshot
  rw [hp]
  simp only
  rw [if_neg hnz, hsub, hb]

/-- Such a database is what a launch leaves whose download of the block hashes fails, or that is killed before it wrote them: the
position is written first. -/
theorem C92_killed_violated (hl : lib.Sound Holds) (s : Scope) (hcol : s.NoCollision lib) (hnodes : s.LargeNodes)
    (hcodes : s.CodesApart) (ops : List Op) (hops : ∀ op ∈ ops, s.Covers lib op) (hk : CodesKnown lib s (world lib ops))
    (hd : Header) (hlt : hd.number.toNat + 1 < 2 ^ 64) (hpos : hd.number ≠ 0) (m : Id → Option Bytes)
    (hm : StateMap lib s (world lib ops) m) (hroot : hd.stateRoot = lib.rootOf m) (hnum : hd.number ∈ s.numbers) (web : Web)
    (hnodes' : ∀ k, ∀ x ∈ web.nodes k, x ∈ s.nodes) (l : List UInt64) (hlist : web.listing = some l) (hmem : hd.number ∈ l)
    (hblock : web.block = fun _ => none) (file : Bytes) (hf : web.download hd.number = some file) (gs : List Group)
    (hs : Says c file hd gs) (hdesc : Describes lib s (world lib ops) gs) (d0 : Disk) (h0 : d0.next ≠ hd.number + 1) :
    ∃ d, launchSnapshot c lib web hd.number d0 = (d, .err) ∧ killed c lib web hd.number d0 (.hashes 0) = d ∧
      ∀ ls : List Launch, (∀ l ∈ ls, l.snapshot = hd.number) → ∀ web',
        launchSnapshot c lib web' hd.number (launches c lib d ls) = (d, .panic) := by
  obtain ⟨d, h1, h2, h3, _⟩ := C81_hashes_violated lib Holds hl s hcol hnodes hcodes c ops hops hk hd hlt m hm hroot web.nodes
    hnodes' file gs hs hdesc
  have hmax : hd.number.toNat + 1 ≠ 2 ^ 64 := by omega
  have hp : prepare c lib web hd.number d0 = (d, .err) := by
    unfold prepare
    rw [if_neg hpos, if_neg hmax, if_neg h0, hlist]
    simp only [List.contains_iff_mem.mpr hmem, hf, hblock, h1]
    rfl
  refine ⟨d, ?_, ?_, fun ls hls web' => C92_stuck_violated c lib hd.number hpos hmax d h2 (h3 _ hnum) ls hls web'⟩
  · unfold launchSnapshot
    rw [hp]
  · have hz : ¬ (hd.number = 0 ∨ hd.number.toNat + 1 = 2 ^ 64 ∨ d0.next = hd.number + 1) := by
      rintro (h | h | h)
      · exact hpos h
      · exact hmax h
      · exact h0 h
    unfold killed
    rw [if_neg hz]
    simp only [hlist, hf, List.contains_iff_mem.mpr hmem]
    have hz0 : ¬ (Disk.fresh lib).next ≠ 0 := fun h => h rfl
    rw [importAll, if_neg hz0] at h1
    cases hi : importState c lib web.nodes file ((Disk.fresh lib).open lib) with
    | mk db r =>
      rw [hi] at h1
      cases r with
      | err =>
        exfalso
        cases h1
        exact add_one_ne hmax h2.symm
      | panic => cases h1
      | ok h' =>
        simp only at h1 ⊢
        split at h1
        · cases h1
        · next hmx =>
          have he : importHashes lib (fun _ => none) h'.number db.kv = (db.kv, .err) := rfl
          rw [he] at h1
          cases h1
          rw [if_neg (by simp), if_neg hmx]
          simp [hashLoop]

/-- The number of the block in the file is not compared with that of the requested block: a file that is listed for another block
than the one in its header is imported and gossiped all the same; and imported again by the next launch. -/
theorem C92_number_violated (web : Web) (snapshot : UInt64) (hs : snapshot ≠ 0) (hmax : snapshot.toNat + 1 ≠ 2 ^ 64) (d : Disk)
    (hn : d.next ≠ snapshot + 1) (l : List UInt64) (hl : web.listing = some l) (hmem : snapshot ∈ l) (file : Bytes)
    (hf : web.download snapshot = some file) (d' : Disk) (hd : Header) (hne : hd.number ≠ snapshot)
    (hi : importAll c lib web.nodes web.block file (Disk.fresh lib) = (d', .ok hd)) (hash : Id)
    (hb : blockHash lib (d'.open lib) hd.number = some hash) :
    ∃ g, launchSnapshot c lib web snapshot d = (d', .ok g) ∧ g.number = hd.number ∧ g.number ≠ snapshot ∧
      launchSnapshot c lib web snapshot d' = (d', .ok g) ∧ d'.next ≠ snapshot + 1 := by
  have h1 := C92_imports c lib web snapshot hs hmax d hn l hl hmem file hf d' hd hi hash hb
  have hnum : d'.next = hd.number + 1 := by
    obtain ⟨_, h3, h4, h5, _⟩ := launchSnapshot_ok h1
    simp only at h4
    rw [h4]; simp
  have hn' : d'.next ≠ snapshot + 1 := by
    rw [hnum]
    exact fun h => hne (add_one_inj h)
  exact ⟨_, h1, rfl, hne, C92_imports c lib web snapshot hs hmax d' hn' l hl hmem file hf d' hd hi hash hb, hn'⟩

end Snapshot

/-! ## Examples -/

namespace StateBridgeExample

def one : Item := (.accountTrieNode [] 7, .accountTrieNode [[1, 2, 3]] 9)
def two : Item := (.bytecode 5 6, .bytecodeWithProof [1] [[1, 2, 3]] 9)
def three : Item := (.accountTrieNode [] 8, .accountTrieNode [[4]] 9)

/-- Two peers for the first item, at most two offers at once, and one peer for the second. The first peer declines, the second is
silent; the third offer is sent when there is a permit. -/
def events : List (Event Nat) :=
  [.main (some [10, 11]), .main none, .main none, .main (some [12]), .main none, .tick 500, .reply 0 0 (.trace (.success .alreadyStored)),
    .main none, .reply 0 1 .timeout, .tick 119500, .reply 0 1 .timeout, .reply 1 0 (.trace (.success .accepted))]

/-- In between, a step of the loop waits, and an offer does not time out too early; then all offers have ended, and were told. -/
example :
    let s := run true (init 2 [one, two]) events
    s.main = .running [] ∧ s.permits = 2 ∧ s.totals = ⟨1, 1, 1⟩ ∧ s.totals.report = some (33, 33, 33) ∧
    s.recorded.map (fun r => (r.peer, r.duration, r.trace)) =
      [(12, 119500, .success .accepted), (11, 120000, .failed), (10, 500, .success .alreadyStored)] ∧
    s.contents.map (fun c => (c.report.accepted, c.report.declined, c.report.failed, c.report.printed)) =
      [(0, [(10, .alreadyStored)], [11], 1), (1, [], [], 1)] ∧
    (step true s (.main none)).main = .finished := by decide +kernel

/-- Two bridges share the items of two blocks; the second of them fails after its first item. -/
example : plan ⟨1, 2⟩ [⟨[one, two, three], true⟩, ⟨[two], false⟩] = ([one, three, two], false) ∧
    plan ⟨2, 2⟩ [⟨[one, two, three], true⟩, ⟨[two], false⟩] = ([two], false) := by decide +kernel

section
open Verif.Execution ExecutionExample

/-- Blocks 2 to 4 of a chain, after the execution of blocks 0 and 1. -/
example :
    let r := (launchRange adder 0 2 4 [tick false false, tick false true] [[tick false false], [tick false false], [tick true false]])
    (r.map fun x => (x.1.map fun n => (n.disk.next, n.disk.world 0, n.disk.root), x.2)) =
      some ([(3, some 12, 12), (4, some 13, 13), (5, some 14, 14)], .done) := by decide +kernel

/-- If it is interrupted, it is a part of them. -/
example :
    let r := (launchRange adder 0 2 4 [tick false false, tick false true] [[tick false false], []])
    (r.map fun x => (x.1.map fun n => (n.disk.next, n.disk.world 0, n.disk.root), x.2)) =
      some ([(3, some 12, 12)], .interrupted) := by decide +kernel

example : launchRange adder 0 2 15537395 [] [] = none := by decide +kernel

end

section
open Verif.E2ss Verif.EvmDb Verif.Props.Snapshot SnapshotExample EvmDbExample
open Verif.E2store (fileBytes)

/-- A server with one file, the snapshot of the empty state at block 5, listed for block `n`. -/
def file5 : Bytes := fileBytes (records codecs ⟨5, 55, []⟩ (items []))

theorem says5 : Says codecs file5 ⟨5, 55, []⟩ [] := by
  refine says_file lawful (by simp) ?_
  intro r hr
  simp only [records, items, List.flatMap_nil, List.map_nil, List.mem_cons, List.not_mem_nil, or_false] at hr
  rcases hr with rfl | rfl
  · decide
  · simp [codecs, Id.bytes_length]

def server (n : UInt64) (block : UInt64 → Option (UInt64 × Id)) : Web :=
  { listing := some [n], download := fun i => if i = n then some file5 else none, block, nodes := fun _ => [] }

def allBlocks (n : UInt64) : Option (UInt64 × Id) := some (n, BitVec.ofNat 256 (n.toNat + 100))

theorem import5 (block : UInt64 → Option (UInt64 × Id)) :
    importAll codecs lib (fun _ => []) block file5 (Disk.fresh lib) =
      match importHashes lib block 5 ((Disk.fresh lib).open lib).kv with
      | (kv, r) => (⟨kv, fun _ => none, 6, 55⟩, r.map fun _ => ⟨5, 55, []⟩) := by
  have h0 : ¬ (Disk.fresh lib).next ≠ 0 := fun h => h rfl
  have hi : importState codecs lib (fun _ => []) file5 ((Disk.fresh lib).open lib) =
      ((commitTrie lib ((Disk.fresh lib).open lib) []).2, .ok ⟨5, 55, []⟩) := by
    rw [importState_says codecs lib _ file5 _ [] says5]
    simp only [groupsLoop]
    rw [if_neg]
    intro hne
    apply hne
    exact sound.emptyRoot.symm
  rw [importAll, if_neg h0]
  simp only [hi]
  rfl

/-- The files of a server that lists the file for its block are what they are listed as. -/
theorem honest5 (block : UInt64 → Option (UInt64 × Id)) : HonestFiles codecs (server 5 block) := by
  intro n file h gs hd hs
  simp only [server] at hd
  split at hd
  · next hn =>
    cases hd
    subst hn
    have h1 := (readFile_iff codecs file5 h (items gs)).mpr ⟨gs, hs, rfl⟩
    have h2 := (readFile_iff codecs file5 ⟨5, 55, []⟩ (items [])).mpr ⟨[], says5, rfl⟩
    rw [h2] at h1
    have h3 := congrArg (fun r => match r with | .ok (x : Header × List E2ss.Item) => x.1.number | _ => 0) h1
    exact h3.symm
  · cases hd

/-- A launch for this snapshot on a database that is elsewhere: it gossips block 5 with its hash; launched again, it gossips the
same without the server; launched for another block, everything is gone. -/
example : ∃ d g, launchSnapshot codecs lib (server 5 allBlocks) 5 ⟨fun _ => some [1], fun _ => some [2], 100, 3⟩ = (d, .ok g) ∧
    g.number = 5 ∧ g.hash = 105 ∧
    launchSnapshot codecs lib (server 9 fun _ => none) 5 d = (d, .ok g) ∧
    launchSnapshot codecs lib (server 9 fun _ => none) 8 d = (Disk.fresh lib, .err) := by
  cases hh : importHashes lib allBlocks 5 ((Disk.fresh lib).open lib).kv with
  | mk kv r =>
    have hr : (importHashes lib allBlocks 5 ((Disk.fresh lib).open lib).kv).2 = .ok () := rfl
    rw [hh] at hr
    simp only at hr
    have hi := import5 allBlocks
    rw [hh, hr] at hi
    have hb : blockHash lib (Disk.open lib ⟨kv, fun _ => none, 6, 55⟩) 5 = some 105 := by
      have e : kv = (importHashes lib allBlocks 5 ((Disk.fresh lib).open lib).kv).1 := by rw [hh]
      rw [e]
      decide +kernel
    have h1 := C92_imports codecs lib (server 5 allBlocks) 5 (by decide) (by decide) ⟨fun _ => some [1], fun _ => some [2], 100, 3⟩
      (by decide) [5] rfl (by simp) file5 rfl _ _ hi 105 hb
    refine ⟨_, _, h1, rfl, rfl, ?_, ?_⟩
    · unfold launchSnapshot prepare
      rw [if_neg (by decide), if_neg (by decide), if_pos (show (6 : UInt64) = 5 + 1 by decide)]
      simp only
      rw [if_neg (by decide)]
      show (match blockHash lib (Disk.open lib ⟨kv, fun _ => none, 6, 55⟩) 5 with | none => _ | some hash => _) = _
      rw [hb]
      rfl
    · exact C92_deletes_violated codecs lib _ 8 (by decide) (by decide) _ (by simp) (.inr (.inl ⟨[9], rfl, by decide⟩))

/-- After a launch that was killed while it imported, with something in the database: the next one begins anew, and
`C92_snapshot` applies. -/
example : ∃ d g, launchSnapshot codecs lib (server 5 allBlocks) 5
      (launches codecs lib ⟨fun _ => some [1], fun _ => some [2], 100, 3⟩ [⟨server 5 allBlocks, 5, some (.importing fun _ => some [9])⟩]) = (d, .ok g) ∧
    g.number = 5 ∧ FromFile codecs lib [server 5 allBlocks, server 5 allBlocks] 5 d := by
  cases hh : importHashes lib allBlocks 5 ((Disk.fresh lib).open lib).kv with
  | mk kv r =>
    have hr : (importHashes lib allBlocks 5 ((Disk.fresh lib).open lib).kv).2 = .ok () := rfl
    rw [hh] at hr
    simp only at hr
    have hi := import5 allBlocks
    rw [hh, hr] at hi
    have hb : blockHash lib (Disk.open lib ⟨kv, fun _ => none, 6, 55⟩) 5 = some 105 := by
      have e : kv = (importHashes lib allBlocks 5 ((Disk.fresh lib).open lib).kv).1 := by rw [hh]
      rw [e]
      decide +kernel
    have h1 := C92_imports codecs lib (server 5 allBlocks) 5 (by decide) (by decide)
      (launches codecs lib ⟨fun _ => some [1], fun _ => some [2], 100, 3⟩ [⟨server 5 allBlocks, 5, some (.importing fun _ => some [9])⟩])
      (by decide) [5] rfl (by simp) file5 rfl _ _ hi 105 hb
    have h2 := C92_snapshot codecs lib Holds sound _ _ _ 5 (by decide)
      (by intro l hl; rw [List.mem_singleton.mp hl]; exact honest5 _) (honest5 _) _ _ h1
    exact ⟨_, _, h1, h2.1, h2.2.2.1⟩

/-- The same file listed for block 7: block 5 is gossiped. -/
example : ∃ d g, launchSnapshot codecs lib (server 7 allBlocks) 7 (Disk.fresh lib) = (d, .ok g) ∧ g.number = 5 := by
  cases hh : importHashes lib allBlocks 5 ((Disk.fresh lib).open lib).kv with
  | mk kv r =>
    have hr : (importHashes lib allBlocks 5 ((Disk.fresh lib).open lib).kv).2 = .ok () := rfl
    rw [hh] at hr
    simp only at hr
    have hi := import5 allBlocks
    rw [hh, hr] at hi
    have hb : blockHash lib (Disk.open lib ⟨kv, fun _ => none, 6, 55⟩) 5 = some 105 := by
      have e : kv = (importHashes lib allBlocks 5 ((Disk.fresh lib).open lib).kv).1 := by rw [hh]
      rw [e]
      decide +kernel
    obtain ⟨g, h1, h2, _⟩ := C92_number_violated codecs lib (server 7 allBlocks) 7 (by decide) (by decide) (Disk.fresh lib)
      (by decide) [7] rfl (by simp) file5 rfl _ ⟨5, 55, []⟩ (by decide) hi 105 hb
    exact ⟨_, g, h1, h2⟩

/-- The blocks cannot be downloaded: this launch fails, and all later ones panic, although the server has everything. -/
example : ∃ d, launchSnapshot codecs lib (server 5 fun _ => none) 5 (Disk.fresh lib) = (d, .err) ∧
    ∀ n, launchSnapshot codecs lib (server 5 allBlocks) 5
      (launches codecs lib d (List.replicate n ⟨server 5 allBlocks, 5, none⟩)) = (d, .panic) := by
  have hi := import5 (fun _ => none)
  have hh : importHashes lib (fun _ => none) 5 ((Disk.fresh lib).open lib).kv = (((Disk.fresh lib).open lib).kv, .err) := rfl
  rw [hh] at hi
  refine ⟨⟨((Disk.fresh lib).open lib).kv, fun _ => none, 6, 55⟩, ?_, ?_⟩
  · unfold launchSnapshot prepare
    rw [if_neg (by decide), if_neg (by decide), if_neg (by decide)]
    simp only [server, if_true]
    rw [hi]
    rfl
  · intro n
    refine C92_stuck_violated codecs lib 5 (by decide) (by decide) _ rfl (by decide +kernel) _ ?_ _
    intro l hl
    rw [List.eq_of_mem_replicate hl]

end

end StateBridgeExample

end Verif.Props
