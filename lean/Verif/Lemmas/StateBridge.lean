import Verif.Props.StateBridgeSpec
import Verif.Lemmas.Execution
import Verif.Lemmas.E2ssImport

/-! # Lemmas about the state bridge -/

namespace Verif.StateBridge
open Verif.Props.StateBridges
open Verif.TrieWalker (Item)
open Verif.Census (OfferTrace)

variable {P : Type}

/-- What a report says, from the results so far. -/
structure ReportOk (r : Report P) (total : Nat) (l : List (P × OfferTrace)) : Prop where
  totalEq : r.total = total
  accepted : r.accepted = (l.map (·.2)).countP isAccepted
  declined : r.declined.length = (l.map (·.2)).countP fun t => !isAccepted t && !isFailed t
  failed : r.failed.length = (l.map (·.2)).countP isFailed
  declinedMem : ∀ p code, (p, code) ∈ r.declined ↔ (p, OfferTrace.success code) ∈ l ∧ code ≠ .accepted
  failedMem : ∀ p, p ∈ r.failed ↔ (p, OfferTrace.failed) ∈ l
  printed : r.printed = if l ≠ [] ∧ total = l.length then 1 else 0

theorem count_length (l : List OfferTrace) :
    l.countP isAccepted + l.countP isFailed + (l.countP fun t => !isAccepted t && !isFailed t) = l.length := by
  induction l with
  | nil => rfl
  | cons t l ih =>
    simp only [List.countP_cons, List.length_cons]
    have : isAccepted t = true → isFailed t = false := by
      intro h
      cases t with
      | success c => rfl
      | failed => cases h
    cases h1 : isAccepted t <;> cases h2 : isFailed t <;> simp_all <;> omega

theorem ReportOk.perm {r : Report P} {total : Nat} {l l' : List (P × OfferTrace)} (h : ReportOk r total l) (hp : l.Perm l') :
    ReportOk r total l' := by
  have hm := hp.map (·.2)
  refine ⟨h.totalEq, ?_, ?_, ?_, ?_, ?_, ?_⟩
  · rw [h.accepted]; exact hm.countP_eq _
  · rw [h.declined]; exact hm.countP_eq _
  · rw [h.failed]; exact hm.countP_eq _
  · intro p code; rw [h.declinedMem, hp.mem_iff]
  · intro p; rw [h.failedMem, hp.mem_iff]
  · rw [h.printed, hp.length_eq]
    have : l ≠ [] ↔ l' ≠ [] := by
      rw [Ne, Ne, ← List.length_eq_zero_iff, ← List.length_eq_zero_iff, hp.length_eq]
    simp only [this]

theorem ReportOk.update {r : Report P} {total : Nat} {l : List (P × OfferTrace)} (h : ReportOk r total l) (hl : l.length < total)
    (peer : P) (trace : OfferTrace) : ReportOk (r.update peer trace) total ((peer, trace) :: l) := by
  have hp : r.printed = 0 := by rw [h.printed, if_neg]; omega
  have hc := count_length (l.map (·.2))
  have h1 := h.accepted
  have h2 := h.declined
  have h3 := h.failed
  rw [List.length_map] at hc
  cases trace with
  | failed =>
    unfold Report.update
    simp only
    split
    all_goals
      next he =>
      refine ⟨h.totalEq, ?_, ?_, ?_, ?_, ?_, ?_⟩
      · simp only [List.map_cons, List.countP_cons, h1]; simp [isAccepted]
      · simp only [List.map_cons, List.countP_cons, h2]; simp [isAccepted, isFailed]
      · simp only [List.map_cons, List.countP_cons, List.length_append, List.length_singleton, h3]; simp [isFailed]
      · intro p code
        simp [h.declinedMem]
      · intro p
        simp only [List.mem_append, h.failedMem, List.mem_cons, List.not_mem_nil, or_false, Prod.mk.injEq, and_true]
        exact Or.comm
      · simp only [h.totalEq, List.length_append, List.length_singleton] at he
        simp only [List.length_cons, ne_eq, reduceCtorEq, not_false_eq_true, true_and]
        first | (rw [if_pos (by omega)]; omega) | (rw [if_neg (by omega)]; exact hp)
  | success code =>
    by_cases hcode : code = .accepted
    · subst hcode
      unfold Report.update
      simp only [if_true]
      split
      all_goals
        next he =>
        refine ⟨h.totalEq, ?_, ?_, ?_, ?_, ?_, ?_⟩
        · simp only [List.map_cons, List.countP_cons, h1]; simp [isAccepted]
        · simp only [List.map_cons, List.countP_cons, h2]; simp [isAccepted, isFailed]
        · simp only [List.map_cons, List.countP_cons, List.length_append, List.length_singleton, h3]; simp [isFailed]
        · intro p c
          simp only [h.declinedMem, List.mem_cons, Prod.mk.injEq, OfferTrace.success.injEq]
          constructor
          · exact fun h => ⟨.inr h.1, h.2⟩
          · rintro ⟨h | h, h'⟩
            · exact absurd h.2 h'
            · exact ⟨h, h'⟩
        · intro p
          simp [h.failedMem]
        · simp only [h.totalEq] at he
          simp only [List.length_cons, ne_eq, reduceCtorEq, not_false_eq_true, true_and]
          first | (rw [if_pos (by omega)]; omega) | (rw [if_neg (by omega)]; exact hp)
    · have ha : isAccepted (.success code) = false := by
        cases code <;> first | rfl | exact absurd rfl hcode
      unfold Report.update
      simp only [if_neg hcode]
      split
      all_goals
        next he =>
        refine ⟨h.totalEq, ?_, ?_, ?_, ?_, ?_, ?_⟩
        · simp only [List.map_cons, List.countP_cons, h1]; simp [ha]
        · simp only [List.map_cons, List.countP_cons, List.length_append, List.length_singleton, h2]; simp [ha, isFailed]
        · simp only [List.map_cons, List.countP_cons, List.length_append, List.length_singleton, h3]; simp [isFailed]
        · intro p c
          simp only [h.declinedMem, List.mem_cons, Prod.mk.injEq, OfferTrace.success.injEq, List.mem_append, List.not_mem_nil,
            or_false]
          constructor
          · rintro (h | ⟨h, h'⟩)
            · exact ⟨.inr h.1, h.2⟩
            · subst h'; exact ⟨.inl ⟨h, rfl⟩, hcode⟩
          · rintro ⟨h | h, h'⟩
            · exact .inr h
            · exact .inl ⟨h, h'⟩
        · intro p
          simp [h.failedMem]
        · simp only [h.totalEq, List.length_append, List.length_singleton] at he
          simp only [List.length_cons, ne_eq, reduceCtorEq, not_false_eq_true, true_and]
          first | (rw [if_pos (by omega)]; omega) | (rw [if_neg (by omega)]; exact hp)

/-- What holds of one content. -/
structure ContentOk (clock : Nat) (c : Content P) : Prop where
  peers : sentTo c <+: selected c
  times : ∀ o ∈ c.offers, o.sent ≤ clock ∧ ∀ r t, o.result = some (r, t) → o.sent ≤ t ∧ t ≤ clock
  report : ReportOk c.report (selected c).length (resultsOf c)

/-- Offers of a content that have not ended. -/
def Content.open (c : Content P) : Nat := (c.offers.filter fun o => o.result.isNone).length

structure Inv (limit : Nat) (items : List Item) (ok : Bool) (s : State P) : Prop where
  contents : ∀ c ∈ s.contents, ContentOk s.clock c
  full : ∀ c ∈ s.contents.dropLast, sentTo c = selected c
  main :
    match s.main with
    | .running todo => s.contents.map (·.item) ++ todo = items
    | .stopped => s.contents.map (·.item) <+: items
    | .finished => ok = true ∧ s.contents.map (·.item) = items ∧ ∀ c ∈ s.contents, sentTo c = selected c
    | .panicked => ok = false ∧ s.contents.map (·.item) = items ∧ ∀ c ∈ s.contents, sentTo c = selected c
  permits : (s.contents.map Content.open).sum + s.permits = limit
  recorded : s.recorded.Perm (s.contents.flatMap toldOf)
  totals : s.totals = count (s.recorded.map (·.trace))

theorem next_none {c : Content P} {clock : Nat} (h : ContentOk clock c) (hn : c.next = none) : sentTo c = selected c := by
  unfold Content.next at hn
  rw [List.getElem?_eq_none_iff] at hn
  apply h.peers.eq_of_length_le
  simpa [sentTo, selected] using hn

theorem next_some {c : Content P} {clock : Nat} (h : ContentOk clock c) {p : P} (hn : c.next = some p) :
    sentTo c ++ [p] <+: selected c := by
  unfold Content.next at hn
  obtain ⟨t, ht⟩ := h.peers
  have hlen : (sentTo c).length = c.offers.length := by simp [sentTo]
  change (selected c)[c.offers.length]? = some p at hn
  rw [← ht, ← hlen, List.getElem?_append_right (Nat.le_refl _), Nat.sub_self] at hn
  cases t with
  | nil => cases hn
  | cons x t =>
    simp only [List.getElem?_cons_zero, Option.some.injEq] at hn
    subst hn
    exact ⟨t, by rw [← ht]; simp⟩

theorem ContentOk.mono {clock d : Nat} {c : Content P} (h : ContentOk clock c) : ContentOk (clock + d) c :=
  ⟨h.peers, fun o ho => ⟨Nat.le_trans (h.times o ho).1 (Nat.le_add_right _ _),
    fun r t e => ⟨((h.times o ho).2 r t e).1, Nat.le_trans ((h.times o ho).2 r t e).2 (Nat.le_add_right _ _)⟩⟩, h.report⟩

theorem dropLast_concat_getLast {α : Type} {l : List α} {a : α} (h : l.getLast? = some a) : l.dropLast ++ [a] = l := by
  cases l with
  | nil => cases h
  | cons x l =>
    rw [List.getLast?_eq_some_getLast (by simp)] at h
    cases h
    exact List.dropLast_concat_getLast _

theorem report_new (total : Nat) : ReportOk (Report.new total : Report P) total [] :=
  ⟨rfl, rfl, rfl, rfl, by simp [Report.new], by simp [Report.new], by simp [Report.new]⟩

theorem Inv.init (limit : Nat) (items : List Item) (ok : Bool) : Inv limit items ok (init limit items : State P) :=
  ⟨by simp [StateBridge.init], by simp [StateBridge.init], by simp [StateBridge.init], by simp [StateBridge.init],
    by simp [StateBridge.init], by simp [StateBridge.init, count]⟩

theorem Inv.nextItem {limit : Nat} {items : List Item} {ok : Bool} {s : State P} (h : Inv limit items ok s) {todo : List Item}
    (hm : s.main = .running todo) (hfull : ∀ c ∈ s.contents, sentTo c = selected c) (census : Option (List P)) :
    Inv limit items ok (nextItem ok s todo census) := by
  have hmain := h.main
  rw [hm] at hmain
  cases todo with
  | nil =>
    simp only [List.append_nil] at hmain
    unfold StateBridge.nextItem
    refine ⟨h.contents, h.full, ?_, h.permits, h.recorded, h.totals⟩
    cases ok with
    | false => exact ⟨rfl, hmain, hfull⟩
    | true => exact ⟨rfl, hmain, hfull⟩
  | cons item todo =>
    unfold StateBridge.nextItem
    refine ⟨?_, ?_, ?_, ?_, ?_, h.totals⟩
    · intro c hc
      rcases List.mem_append.mp hc with hc | hc
      · exact h.contents c hc
      · rw [List.mem_singleton] at hc
        subst hc
        exact ⟨List.nil_prefix, by simp [Content.start], report_new _⟩
    · simp only [List.dropLast_concat]
      exact hfull
    · simp only [List.map_append, List.append_assoc]
      exact hmain
    · simp only [List.map_append, List.sum_append]
      have := h.permits
      simp only [Content.start, Content.open, List.map_cons, List.filter_nil, List.length_nil, List.map_nil, List.sum_cons,
        List.sum_nil]
      omega
    · simp only [List.flatMap_append]
      have : List.flatMap toldOf [Content.start item census] = [] := by simp [toldOf, Content.start]
      rw [this, List.append_nil]
      exact h.recorded

theorem Inv.sendNext {limit : Nat} {items : List Item} {ok : Bool} {s : State P} (h : Inv limit items ok s) {todo : List Item}
    (hm : s.main = .running todo) {c : Content P} (hc : s.contents.getLast? = some c) {p : P} (hp : c.next = some p) :
    Inv limit items ok (sendNext s s.contents.dropLast c p) := by
  unfold StateBridge.sendNext
  split
  · exact h
  · next hz =>
    have heq := dropLast_concat_getLast hc
    have hmem : c ∈ s.contents := List.mem_of_getLast? hc
    have hco := h.contents c hmem
    have hmain := h.main
    rw [hm] at hmain
    refine ⟨?_, ?_, ?_, ?_, ?_, h.totals⟩
    · intro x hx
      rcases List.mem_append.mp hx with hx | hx
      · exact h.contents x (List.dropLast_subset _ hx)
      · rw [List.mem_singleton] at hx
        subst hx
        refine ⟨?_, ?_, ?_⟩
        · have := next_some hco hp
          simpa [sentTo, selected] using this
        · intro o ho
          rcases List.mem_append.mp ho with ho | ho
          · exact hco.times o ho
          · rw [List.mem_singleton] at ho
            subst ho
            exact ⟨Nat.le_refl _, by intro r t e; cases e⟩
        · have hr : resultsOf { c with offers := c.offers ++ [⟨p, s.clock, none⟩] } = resultsOf c := by
            simp [resultsOf]
          rw [hr]
          exact hco.report
    · simp only [List.dropLast_concat]
      exact fun x hx => h.full x hx
    · simp only [hm]
      rw [← hmain, ← heq]
      simp
    · have hpm := h.permits
      rw [← heq] at hpm
      simp only [List.map_append, List.sum_append, Content.open, List.map_cons, List.map_nil, List.sum_cons, List.sum_nil,
        List.filter_append, List.length_append] at hpm ⊢
      simp only [Option.isNone_none, List.filter_cons_of_pos, List.filter_nil, List.length_singleton]
      omega
    · have hr := h.recorded
      rw [← heq] at hr
      simp only [List.flatMap_append, List.flatMap_cons, List.flatMap_nil, List.append_nil] at hr ⊢
      have : toldOf { c with offers := c.offers ++ [⟨p, s.clock, none⟩] } = toldOf c := by
        simp [toldOf]
      rw [this]
      exact hr

theorem count_cons (t : OfferTrace) (l : List OfferTrace) : count (t :: l) = (count l).update t := by
  cases t with
  | failed => simp only [count, List.countP_cons, Totals.update]; simp [isAccepted, isFailed]
  | success code =>
    by_cases h : code = .accepted
    · subst h; simp only [count, List.countP_cons, Totals.update]; simp [isAccepted, isFailed]
    · have ha : isAccepted (.success code) = false := by
        cases code <;> first | rfl | exact absurd rfl h
      simp [count, Totals.update, ha, isFailed, h]

/-- The list around a place. -/
theorem split_at {α : Type} {l : List α} {i : Nat} {a : α} (h : l[i]? = some a) :
    ∃ pre post, l = pre ++ a :: post ∧ pre.length = i ∧ ∀ b, l.set i b = pre ++ b :: post := by
  obtain ⟨hi, he⟩ := List.getElem?_eq_some_iff.mp h
  refine ⟨l.take i, l.drop (i + 1), ?_, by simp; omega, ?_⟩
  · rw [← he, List.getElem_cons_drop, List.take_append_drop]
  · intro b
    rw [List.set_eq_take_append_cons_drop, if_pos hi]

theorem Inv.endOffer {limit : Nat} {items : List Item} {ok : Bool} {s : State P} (h : Inv limit items ok s) {todo : List Item}
    (hm : s.main = .running todo) (i k : Nat) (r : Reply) : Inv limit items ok (endOffer s i k r) := by
  unfold StateBridge.endOffer
  split
  · exact h
  · next c hc =>
    split
    · next peer sent ho =>
      split
      · exact h
      · have hmain := h.main
        rw [hm] at hmain
        have hco := h.contents c (List.mem_of_getElem? hc)
        obtain ⟨pre, post, heq, hlen, hset⟩ := split_at hc
        obtain ⟨opre, opost, oeq, olen, oset⟩ := split_at ho
        have hsent := (hco.times _ (List.mem_of_getElem? ho)).1
        simp only [hset, oset]
        have hres : (resultsOf { c with offers := opre ++ ⟨peer, sent, some (r.toTrace, s.clock)⟩ :: opost, report := c.report.update peer r.toTrace }).Perm ((peer, r.toTrace) :: resultsOf c) := by
          simp only [resultsOf, oeq, List.filterMap_append, List.filterMap_cons, Option.map_some, Option.map_none]
          exact List.perm_middle
        have htold : (toldOf { c with offers := opre ++ ⟨peer, sent, some (r.toTrace, s.clock)⟩ :: opost, report := c.report.update peer r.toTrace }).Perm
            (⟨peer, c.item.2.encode.length, s.clock - sent, r.toTrace⟩ :: toldOf c) := by
          simp only [toldOf, oeq, List.filterMap_append, List.filterMap_cons, Option.map_some, Option.map_none]
          exact List.perm_middle
        have hsame : sentTo { c with offers := opre ++ ⟨peer, sent, some (r.toTrace, s.clock)⟩ :: opost, report := c.report.update peer r.toTrace } = sentTo c := by
          simp [sentTo, oeq]
        have hlt : (resultsOf c).length < (selected c).length := by
          have h1 : (resultsOf c).length < c.offers.length := by
            simp only [resultsOf, oeq, List.filterMap_append, List.filterMap_cons, Option.map_none, List.length_append,
              List.length_cons]
            have a := List.length_filterMap_le (fun o : Offer P => o.result.map fun r => (o.peer, r.1)) opre
            have b := List.length_filterMap_le (fun o : Offer P => o.result.map fun r => (o.peer, r.1)) opost
            omega
          have h2 := hco.peers.length_le
          simp only [sentTo, List.length_map] at h2
          omega
        refine ⟨?_, ?_, ?_, ?_, ?_, ?_⟩
        · intro x hx
          rcases List.mem_append.mp hx with hx | hx
          · exact h.contents x (by rw [heq]; exact List.mem_append_left _ hx)
          · rcases List.mem_cons.mp hx with rfl | hx
            · refine ⟨by rw [hsame]; exact hco.peers, ?_, ?_⟩
              · intro o ho'
                rcases List.mem_append.mp ho' with ho' | ho'
                · exact hco.times o (by rw [oeq]; exact List.mem_append_left _ ho')
                · rcases List.mem_cons.mp ho' with rfl | ho'
                  · refine ⟨hsent, ?_⟩
                    intro r' t e
                    cases e
                    exact ⟨hsent, Nat.le_refl _⟩
                  · exact hco.times o (by rw [oeq]; exact List.mem_append_right _ (List.mem_cons_of_mem _ ho'))
              · exact ReportOk.perm (hco.report.update hlt peer r.toTrace) hres.symm
            · exact h.contents x (by rw [heq]; exact List.mem_append_right _ (List.mem_cons_of_mem _ hx))
        · intro x hx
          have hf := h.full
          rw [heq] at hf
          rcases post.eq_nil_or_concat with rfl | ⟨post', z, rfl⟩
          · rw [List.dropLast_concat] at hx hf
            exact hf x hx
          · have e1 : ∀ y : Content P, (pre ++ y :: (post' ++ [z])).dropLast = pre ++ y :: post' := by
              intro y
              rw [show pre ++ y :: (post' ++ [z]) = (pre ++ y :: post') ++ [z] by simp, List.dropLast_concat]
            rw [List.concat_eq_append] at hx hf
            rw [e1] at hx hf
            rcases List.mem_append.mp hx with hx | hx
            · exact hf x (List.mem_append_left _ hx)
            · rcases List.mem_cons.mp hx with rfl | hx
              · rw [hsame]; exact hf c (List.mem_append_right _ List.mem_cons_self)
              · exact hf x (List.mem_append_right _ (List.mem_cons_of_mem _ hx))
        · simp only [hm]
          rw [← hmain, heq]
          simp
        · have hpm := h.permits
          rw [heq] at hpm
          simp only [List.map_append, List.map_cons, List.sum_append, List.sum_cons] at hpm ⊢
          have : c.open = Content.open { c with offers := opre ++ ⟨peer, sent, some (r.toTrace, s.clock)⟩ :: opost, report := c.report.update peer r.toTrace } + 1 := by
            simp only [Content.open, oeq, List.filter_append, List.length_append]
            simp
            omega
          omega
        · have hr := h.recorded
          rw [heq] at hr
          simp only [List.flatMap_append, List.flatMap_cons] at hr ⊢
          refine ((List.Perm.cons _ hr).trans ?_)
          refine List.Perm.trans ?_ ((htold.symm.append_right _).append_left _)
          exact List.perm_middle.symm
        · simp only [List.map_cons]
          rw [count_cons, h.totals]
    · exact h

theorem Inv.step {limit : Nat} {items : List Item} {ok : Bool} {s : State P} (h : Inv limit items ok s) (e : Event P) :
    Inv limit items ok (step ok s e) := by
  unfold StateBridge.step
  split
  · next todo hm =>
    cases e with
    | main census =>
      simp only
      unfold stepMain
      split
      · next hl =>
        rw [List.getLast?_eq_none_iff] at hl
        exact h.nextItem hm (by rw [hl]; simp) census
      · next c hl =>
        split
        · next hn =>
          refine h.nextItem hm ?_ census
          intro x hx
          rw [← dropLast_concat_getLast hl] at hx
          rcases List.mem_append.mp hx with hx | hx
          · exact h.full x hx
          · rw [List.mem_singleton] at hx
            subst hx
            exact next_none (h.contents x (List.mem_of_getLast? hl)) hn
        · next p hn => exact h.sendNext hm hl hn
    | reply i k r => exact h.endOffer hm i k r
    | tick d =>
      refine ⟨fun c hc => (h.contents c hc).mono, h.full, ?_, h.permits, h.recorded, h.totals⟩
      exact h.main
    | signal =>
      refine ⟨h.contents, h.full, ?_, h.permits, h.recorded, h.totals⟩
      have hmain := h.main
      rw [hm] at hmain
      exact ⟨todo, hmain⟩
  · exact h

theorem Inv.run {limit : Nat} {items : List Item} {ok : Bool} (es : List (Event P)) : ∀ {s : State P}, Inv limit items ok s →
    Inv limit items ok (run ok s es) := by
  induction es with
  | nil => exact fun h => h
  | cons e es ih => exact fun h => ih (h.step e)

theorem reachable_inv {limit : Nat} {items : List Item} {ok : Bool} {s : State P} (h : Reachable limit items ok s) :
    Inv limit items ok s := by
  obtain ⟨es, rfl⟩ := h
  exact (Inv.init limit items ok).run es

theorem run_append (ok : Bool) (s : State P) (a b : List (Event P)) : run ok s (a ++ b) = run ok (run ok s a) b :=
  List.foldl_append

theorem ended_step {ok : Bool} {s : State P} (h : Ended s) (e : Event P) : step ok s e = s := by
  unfold step
  split
  · next todo hm => exact absurd hm (h todo)
  · rfl

theorem ended_run {ok : Bool} {s : State P} (h : Ended s) : ∀ es : List (Event P), run ok s es = s
  | [] => rfl
  | e :: es => by
    show run ok (step ok s e) es = s
    rw [ended_step h]
    exact ended_run h es

/-! ## Progress -/

/-- What does not change when an offer ends. -/
def shape (s : State P) : List (Option (List P) × List P) := s.contents.map fun c => (c.peers, sentTo c)

theorem shape_last {s s' : State P} (h : shape s' = shape s) {c : Content P} (hc : s.contents.getLast? = some c) :
    ∃ c', s'.contents.getLast? = some c' ∧ c'.peers = c.peers ∧ c'.offers.length = c.offers.length := by
  have h1 : (shape s').getLast? = some (c.peers, sentTo c) := by rw [h, shape, List.getLast?_map, hc]; rfl
  rw [shape, List.getLast?_map, Option.map_eq_some_iff] at h1
  obtain ⟨c', h2, h3⟩ := h1
  have h4 := congrArg Prod.fst h3
  have h5 := congrArg (fun x => x.2.length) h3
  refine ⟨c', h2, h4, ?_⟩
  simpa [sentTo] using h5

theorem sum_pos {l : List Nat} (h : 0 < l.sum) : ∃ x ∈ l, 0 < x := by
  induction l with
  | nil => simp at h
  | cons a l ih =>
    by_cases ha : 0 < a
    · exact ⟨a, List.mem_cons_self, ha⟩
    · simp only [List.sum_cons] at h
      obtain ⟨x, h1, h2⟩ := ih (by omega)
      exact ⟨x, List.mem_cons_of_mem _ h1, h2⟩

theorem free {limit : Nat} {items : List Item} {ok : Bool} {s : State P} (h : Inv limit items ok s) {todo : List Item}
    (hm : s.main = .running todo) (hl : 0 < limit) (census : Option (List P)) :
    ∃ es, (∀ e ∈ es, Silent census e) ∧ (run ok s es).main = .running todo ∧ 0 < (run ok s es).permits ∧
      shape (run ok s es) = shape s := by
  by_cases hp : 0 < s.permits
  · exact ⟨[], by simp, hm, hp, rfl⟩
  · have hsum := h.permits
    obtain ⟨x, hx, hpos⟩ := sum_pos (l := s.contents.map Content.open) (by omega)
    obtain ⟨c, hc, rfl⟩ := List.mem_map.mp hx
    obtain ⟨o, ho⟩ := List.exists_mem_of_length_pos hpos
    rw [List.mem_filter] at ho
    obtain ⟨i, hi⟩ := List.getElem?_of_mem hc
    obtain ⟨k, hk⟩ := List.getElem?_of_mem ho.1
    obtain ⟨peer, sent, result⟩ := o
    have hr : result = none := by simpa using ho.2
    subst hr
    have hsent := ((h.contents c hc).times _ ho.1).1
    refine ⟨[.tick serveBlockTimeout, .reply i k .timeout], by simp [Silent], ?_⟩
    have e1 : step ok s (.tick serveBlockTimeout) = { s with clock := s.clock + serveBlockTimeout } := by
      unfold step
      rw [hm]
    have e2 : run ok s [.tick serveBlockTimeout, .reply i k .timeout] =
        endOffer { s with clock := s.clock + serveBlockTimeout } i k .timeout := by
      unfold run
      simp only [List.foldl_cons, List.foldl_nil, e1]
      unfold step
      simp only [hm]
    have hnot : ¬ (True ∧ s.clock + serveBlockTimeout < sent + serveBlockTimeout) := by
      simp only at hsent
      omega
    rw [e2]
    unfold endOffer
    simp only [hi, hk]
    rw [if_neg hnot]
    refine ⟨hm, by simp only; omega, ?_⟩
    simp only [shape]
    obtain ⟨pre, post, heq, _, hset⟩ := split_at hi
    obtain ⟨opre, opost, oeq, _, oset⟩ := split_at hk
    rw [hset, oset, heq]
    simp [sentTo, oeq]

theorem step_main {ok : Bool} {s : State P} {todo : List Item} (hm : s.main = .running todo) (census : Option (List P)) :
    step ok s (.main census) = stepMain ok s todo census := by
  unfold step
  rw [hm]

theorem inv_silent {limit : Nat} {items : List Item} {ok : Bool} {s : State P} (h : Inv limit items ok s) (es : List (Event P)) :
    Inv limit items ok (run ok s es) := h.run es

/-- The offers of the last content get sent. -/
theorem sends {limit : Nat} {items : List Item} {ok : Bool} (hl : 0 < limit) (census : Option (List P)) (todo : List Item) (r : Nat) :
    ∀ {s : State P}, Inv limit items ok s → s.main = .running todo →
      (∀ c, s.contents.getLast? = some c → (selected c).length - c.offers.length ≤ r) →
      ∃ es, (∀ e ∈ es, Silent census e) ∧ (run ok s es).main = .running todo ∧
        ∀ c, (run ok s es).contents.getLast? = some c → c.next = none := by
  induction r with
  | zero =>
    intro s h hm hr
    refine ⟨[], by simp, hm, ?_⟩
    intro c hc
    have := hr c hc
    unfold Content.next
    rw [List.getElem?_eq_none_iff]
    simp only [selected] at this
    omega
  | succ r ih =>
    intro s h hm hr
    cases hg : s.contents.getLast? with
    | none =>
      refine ⟨[], by simp, hm, ?_⟩
      intro c hc
      change s.contents.getLast? = some c at hc
      rw [hg] at hc; cases hc
    | some c =>
      obtain ⟨es, h1, h2, h3, h4⟩ := free h hm hl census
      have hi := h.run es
      obtain ⟨c', hc', hpeers, hlen⟩ := shape_last h4 hg
      have hr' := hr c hg
      have hsel : selected c' = selected c := by rw [selected, selected, hpeers]
      cases hn : c'.next with
      | none =>
        refine ⟨es, h1, h2, ?_⟩
        intro x hx
        rw [hc'] at hx; cases hx
        exact hn
      | some p =>
        have e : step ok (run ok s es) (.main census) =
            { run ok s es with
              permits := (run ok s es).permits - 1
              contents := (run ok s es).contents.dropLast ++ [{ c' with offers := c'.offers ++ [⟨p, (run ok s es).clock, none⟩] }] } := by
          rw [step_main h2]
          unfold stepMain
          rw [hc']
          simp only [hn]
          unfold StateBridge.sendNext
          rw [if_neg (by omega)]
        have hi' := hi.step (.main census)
        obtain ⟨es', g1, g2, g3⟩ := ih (s := step ok (run ok s es) (.main census)) hi' (by rw [e]; exact h2) (by
          intro x hx
          rw [e] at hx
          simp only [List.getLast?_append, List.getLast?_singleton, Option.some_or] at hx
          cases hx
          simp only [List.length_append, List.length_singleton]
          change (selected c').length - _ ≤ r
          rw [hsel]
          omega)
        refine ⟨es ++ .main census :: es', ?_, ?_⟩
        · intro x hx
          rcases List.mem_append.mp hx with hx | hx
          · exact h1 x hx
          · rcases List.mem_cons.mp hx with rfl | hx
            · rfl
            · exact g1 x hx
        · rw [run_append]
          exact ⟨g2, g3⟩

theorem ends {limit : Nat} {items : List Item} {ok : Bool} (hl : 0 < limit) (census : Option (List P)) (todo : List Item) :
    ∀ {s : State P}, Inv limit items ok s → s.main = .running todo →
      ∃ es, (∀ e ∈ es, Silent census e) ∧ (run ok s es).main = if ok then .finished else .panicked := by
  induction todo with
  | nil =>
    intro s h hm
    obtain ⟨es, h1, h2, h3⟩ := sends hl census [] _ h hm (fun c hc => by
      exact Nat.le_trans (Nat.sub_le _ _) (by
        have : (selected c).length ≤ ((s.contents.getLast?.map selected).getD []).length := by rw [hc]; exact Nat.le_refl _
        exact this))
    refine ⟨es ++ [.main census], ?_, ?_⟩
    · intro x hx
      rcases List.mem_append.mp hx with hx | hx
      · exact h1 x hx
      · rw [List.mem_singleton] at hx; subst hx; rfl
    · rw [run_append]
      show (step ok (run ok s es) (.main census)).main = _
      rw [step_main h2]
      unfold stepMain
      split
      · rfl
      · next c hc => rw [h3 c hc]; rfl
  | cons item todo ih =>
    intro s h hm
    obtain ⟨es, h1, h2, h3⟩ := sends hl census (item :: todo) _ h hm (fun c hc => by
      exact Nat.le_trans (Nat.sub_le _ _) (by
        have : (selected c).length ≤ ((s.contents.getLast?.map selected).getD []).length := by rw [hc]; exact Nat.le_refl _
        exact this))
    have e : (step ok (run ok s es) (.main census)).main = .running todo := by
      rw [step_main h2]
      unfold stepMain
      split
      · rfl
      · next c hc => rw [h3 c hc]; rfl
    obtain ⟨es', g1, g2⟩ := ih ((h.run es).step (.main census)) e
    refine ⟨es ++ .main census :: es', ?_, ?_⟩
    · intro x hx
      rcases List.mem_append.mp hx with hx | hx
      · exact h1 x hx
      · rcases List.mem_cons.mp hx with rfl | hx
        · rfl
        · exact g1 x hx
    · rw [run_append]
      exact g2

/-! ## A range of blocks -/

section Range
open Verif.Execution
variable {Key Val : Type} [DecidableEq Key] {m : Machine Key Val} {chain : Nat → Block} {world : Nat → World Key Val} {k : Nat}

/-- Between two blocks. -/
structure Between (m : Machine Key Val) (chain : Nat → Block) (world : Nat → World Key Val) (n : Node Key Val) : Prop where
  ok : n.manager.Ok chain
  next : n.manager.next = n.disk.next
  good : Good m chain world 0 n.disk { pending := [] } n.disk.next

theorem noStop_honest {ts : List Tick} (h : ∀ t ∈ ts, Honest chain t.fetch) : ∀ t ∈ noStop ts, Honest chain t.fetch := by
  intro t ht
  obtain ⟨t', h1, rfl⟩ := List.mem_map.mp ht
  exact h t' h1

theorem noStop_stop {ts : List Tick} : ∀ t ∈ noStop ts, t.stop = false := by
  intro t ht
  obtain ⟨t', h1, rfl⟩ := List.mem_map.mp ht
  rfl

theorem noStop_available {ts : List Tick} (h : ∀ t ∈ ts, Available chain t.fetch) : ∀ t ∈ noStop ts, Available chain t.fetch := by
  intro t ht
  obtain ⟨t', h1, rfl⟩ := List.mem_map.mp ht
  exact h t' h1

theorem between_fresh (hv : ValidChain m chain world) (hk : LooksBack m k) (hkl : k ≤ serveWindow) (emptyRoot : Nat) :
    Between m chain world (restart (Disk.fresh emptyRoot)) :=
  ⟨fun _ h => (nomatch h), rfl, history_good hv hk (lag := 0) hkl (.fresh emptyRoot)⟩

theorem between_range (hv : ValidChain m chain world) (hk : LooksBack m k) (hkl : k ≤ serveWindow) {n n' : Node Key Val}
    (hb : Between m chain world n) {ts : List Tick} (hh : ∀ t ∈ ts, Honest chain t.fetch) {last : Nat}
    (h : processRange m last (noStop ts) n = (.done, n')) :
    Between m chain world n' ∧ n'.disk.next = last + 1 := by
  have := (range_good hv hk (lag := 0) hkl (noStop_honest hh) hb.ok hb.next hb.good h).2.2 rfl
  exact ⟨⟨this.1, this.2.1, this.2.2.2.1⟩, this.2.2.2.2.2 noStop_stop⟩

theorem between_world {n : Node Key Val} (hb : Between m chain world n) (h : n.disk.next ≠ 0) :
    n.disk.world = world n.disk.next ∧ n.disk.root = (chain (n.disk.next - 1)).stateRoot := by
  have := hb.good.at'
  unfold AtPosition at this
  rw [if_neg h] at this
  exact this

theorem gossipLoop_good (hv : ValidChain m chain world) (hk : LooksBack m k) (hkl : k ≤ serveWindow) (stop : Nat) :
    ∀ (rounds : List (List Tick)) (n : Node Key Val), Between m chain world n →
      (∀ ts ∈ rounds, ∀ t ∈ ts, Honest chain t.fetch) →
      ∃ len, gossiped (gossipLoop m stop rounds n).1 = expected chain world n.disk.next len ∧ n.disk.next + len ≤ max n.disk.next (stop + 1) ∧
        ((gossipLoop m stop rounds n).2 = .done → len = stop + 1 - n.disk.next)
  | [], n, hb, _ => by
    refine ⟨0, rfl, by omega, ?_⟩
    unfold gossipLoop
    split
    · intro h; cases h
    · intro _; omega
  | ts :: rounds, n, hb, hh => by
    unfold gossipLoop
    split
    · next hle =>
      cases hp : processNext m (noStop ts) n with
      | mk o n' =>
        cases o with
        | done =>
          have h1 := between_range hv hk hkl hb (hh ts List.mem_cons_self) hp
          have h2 := between_world h1.1 (by omega)
          obtain ⟨len, e1, e2, e3⟩ := gossipLoop_good hv hk hkl stop rounds n' h1.1 (fun t ht => hh t (List.mem_cons_of_mem _ ht))
          refine ⟨len + 1, ?_, by omega, fun h => by have := e3 h; omega⟩
          simp only [gossiped, List.map_cons] at e1 ⊢
          rw [e1, h2.1, h2.2, h1.2]
          simp only [expected, List.range_succ_eq_map, List.map_cons, List.map_map, Nat.add_sub_cancel, Nat.add_zero]
          congr 1
          apply List.map_congr_left
          intro i _
          simp only [Function.comp, Nat.succ_eq_add_one]
          rw [show n.disk.next + 1 + i = n.disk.next + (i + 1) by omega]
        | failed => exact ⟨0, rfl, by omega, fun h => by cases h⟩
        | interrupted => exact ⟨0, rfl, by omega, fun h => by cases h⟩
    · next hle => exact ⟨0, rfl, by omega, fun _ => by omega⟩

theorem range_done (hv : ValidChain m chain world) (hk : LooksBack m k) (hkl : k ≤ serveWindow) {n : Node Key Val}
    (hb : Between m chain world n) (hr : n.manager.Ready chain) {ts : List Tick} (hh : ∀ t ∈ ts, Available chain t.fetch)
    {last : Nat} (hle : n.disk.next ≤ last) (hlen : last + 1 ≤ n.disk.next + ts.length) :
    ∃ n', processRange m last (noStop ts) n = (.done, n') ∧ Between m chain world n' ∧ n'.disk.next = last + 1 ∧
      n'.manager.Ready chain := by
  obtain ⟨n', h1, h2⟩ := loop_done hv hk (lag := 0) hkl last (noStop ts) n { pending := [] } (noStop_available hh) hr
    (hb.next ▸ hb.good) (hb.next ▸ hle) (by rw [hb.next]; simpa [noStop] using hlen)
  have h3 : processRange m last (noStop ts) n = (.done, n') := by
    unfold processRange
    rw [if_pos hle]
    exact h1
  have h4 := between_range hv hk hkl hb (fun t ht => available_honest (hh t ht)) h3
  exact ⟨n', h3, h4.1, h4.2, h2⟩

theorem gossipLoop_done (hv : ValidChain m chain world) (hk : LooksBack m k) (hkl : k ≤ serveWindow) (stop : Nat) :
    ∀ (rounds : List (List Tick)) (n : Node Key Val), Between m chain world n → n.manager.Ready chain →
      (∀ ts ∈ rounds, ts ≠ [] ∧ ∀ t ∈ ts, Available chain t.fetch) → stop + 1 ≤ n.disk.next + rounds.length →
      (gossipLoop m stop rounds n).2 = .done
  | [], n, hb, _, _, hl => by
    unfold gossipLoop
    rw [if_neg (by simp only [List.length_nil] at hl; omega)]
  | ts :: rounds, n, hb, hr, hh, hl => by
    unfold gossipLoop
    split
    · have hts := hh ts List.mem_cons_self
      have hlen : 0 < ts.length := List.length_pos_iff.mpr hts.1
      obtain ⟨n', h1, h2, h3, h4⟩ := range_done hv hk hkl hb hr hts.2 (Nat.le_refl _) (by omega)
      have : processNext m (noStop ts) n = (.done, n') := h1
      rw [this]
      refine gossipLoop_done hv hk hkl stop rounds n' h2 h4 (fun t ht => hh t (List.mem_cons_of_mem _ ht)) ?_
      simp only [List.length_cons] at hl
      omega
    · rfl

end Range

/-! ## Snapshots -/

section Snapshot
open Verif.E2ss Verif.EvmDb Verif.Props.Snapshot
open Verif.E2store (Res)

variable {c : Codecs} {lib : Lib} {Holds : Nodes → (Id → Option Bytes) → Prop}

theorem fromFile_mono {webs webs' : List Web} {n : UInt64} {d : Disk} (h : FromFile c lib webs n d) (hs : ∀ w ∈ webs, w ∈ webs') :
    FromFile c lib webs' n d := by
  obtain ⟨w, hw, r⟩ := h
  exact ⟨w, hs w hw, r⟩

theorem importState_from (hl : lib.Sound Holds) {nodes : Nat → List Bytes} {file : Bytes} {db : Db} {h : Header}
    (hi : importState c lib nodes file ((Disk.fresh lib).open lib) = (db, .ok h)) :
    ∃ gs, Says c file h gs ∧ Consistent lib h gs ∧ db.trie = accountContent lib gs := by
  have h2 : (importState c lib nodes file ((Disk.fresh lib).open lib)).2 = .ok h := by rw [hi]
  obtain ⟨gs, g1, g2⟩ := (importState_iff hl c nodes file _ rfl h).mp h2
  have := importState_trie hl c nodes file _ rfl h gs g1 h2
  rw [hi] at this
  exact ⟨gs, g1, g2, this⟩

/-- After an import of the file for a block: nothing, or the file. -/
theorem importAll_from (hl : lib.Sound Holds) {web : Web} {snapshot : UInt64} {file : Bytes} (hf : web.download snapshot = some file) :
    (importAll c lib web.nodes web.block file (Disk.fresh lib)).1.next = 0 ∨
      FromFile c lib [web] snapshot (importAll c lib web.nodes web.block file (Disk.fresh lib)).1 := by
  unfold importAll
  split
  · next h => exact absurd rfl h
  · cases hi : importState c lib web.nodes file ((Disk.fresh lib).open lib) with
    | mk db r =>
      cases r with
      | err => exact .inl rfl
      | panic => exact .inl rfl
      | ok h =>
        obtain ⟨gs, g1, g2, g3⟩ := importState_from hl hi
        simp only
        split
        · exact .inl rfl
        · exact .inr ⟨web, by simp, file, h, gs, hf, g1, g2, g3, rfl, rfl⟩

/-- What is in the database after launches. -/
def Known (c : Codecs) (lib : Lib) (d0 : Disk) (webs : List Web) (d : Disk) : Prop :=
  d = d0 ∨ d.next = 0 ∨ ∃ n, FromFile c lib webs n d

theorem Known.mono {d0 d : Disk} {webs webs' : List Web} (h : Known c lib d0 webs d) (hs : ∀ w ∈ webs, w ∈ webs') :
    Known c lib d0 webs' d := by
  rcases h with h | h | ⟨n, h⟩
  · exact .inl h
  · exact .inr (.inl h)
  · exact .inr (.inr ⟨n, fromFile_mono h hs⟩)

theorem prepare_known (hl : lib.Sound Holds) (web : Web) (snapshot : UInt64) (d : Disk) :
    (prepare c lib web snapshot d).1 = d ∨ (prepare c lib web snapshot d).1.next = 0 ∨
      FromFile c lib [web] snapshot (prepare c lib web snapshot d).1 := by
  unfold prepare
  split
  · exact .inl rfl
  · split
    · exact .inl rfl
    · split
      · exact .inl rfl
      · split
        · exact .inr (.inl rfl)
        · split
          · exact .inr (.inl rfl)
          · split
            · exact .inr (.inl rfl)
            · next file hf => exact .inr (importAll_from hl hf)

theorem killed_known (hl : lib.Sound Holds) (web : Web) (snapshot : UInt64) (d : Disk) (k : Kill) :
    killed c lib web snapshot d k = d ∨ (killed c lib web snapshot d k).next = 0 ∨
      FromFile c lib [web] snapshot (killed c lib web snapshot d k) := by
  unfold killed
  split
  · exact .inl rfl
  · right
    cases k with
    | emptied => exact .inl rfl
    | importing kv => exact .inl rfl
    | hashes written =>
      simp only
      split
      · next l file hl' hf =>
        split
        · exact .inl rfl
        · cases hi : importState c lib web.nodes file ((Disk.fresh lib).open lib) with
          | mk db r =>
            cases r with
            | err => exact .inl rfl
            | panic => exact .inl rfl
            | ok h =>
              obtain ⟨gs, g1, g2, g3⟩ := importState_from hl hi
              simp only
              split
              · exact .inl rfl
              · exact .inr ⟨web, by simp, file, h, gs, hf, g1, g2, g3, rfl, rfl⟩
      · exact .inl rfl

theorem launchSnapshot_disk (web : Web) (snapshot : UInt64) (d : Disk) :
    (launchSnapshot c lib web snapshot d).1 = (prepare c lib web snapshot d).1 := by
  unfold launchSnapshot
  split
  · next h => rw [h]
  · next h => rw [h]
  · next h =>
    rw [h]
    split
    · rfl
    · split <;> rfl

theorem after_known (hl : lib.Sound Holds) {d0 d : Disk} {webs : List Web} (h : Known c lib d0 webs d) (l : Launch) :
    Known c lib d0 (webs ++ [l.web]) (l.after c lib d) := by
  have hm := h.mono (webs' := webs ++ [l.web]) (fun w hw => List.mem_append_left _ hw)
  have key : ∀ d', (d' = d ∨ d'.next = 0 ∨ FromFile c lib [l.web] l.snapshot d') → Known c lib d0 (webs ++ [l.web]) d' := by
    rintro d' (rfl | h | h)
    · exact hm
    · exact .inr (.inl h)
    · exact .inr (.inr ⟨_, fromFile_mono h (fun w hw => List.mem_append_right _ hw)⟩)
  apply key
  unfold Launch.after
  split
  · rw [launchSnapshot_disk]
    exact prepare_known hl _ _ _
  · exact killed_known hl _ _ _ _

theorem launches_known (hl : lib.Sound Holds) {d0 : Disk} : ∀ (ls : List Launch) (d : Disk) (webs : List Web), Known c lib d0 webs d →
    Known c lib d0 (webs ++ ls.map (·.web)) (launches c lib d ls)
  | [], d, webs, h => by simpa [launches] using h
  | l :: ls, d, webs, h => by
    have := launches_known hl ls _ _ (after_known hl h l)
    simpa [launches] using this

theorem add_one_inj {a b : UInt64} (h : a + 1 = b + 1) : a = b := by
  have := congrArg (· - 1) h
  simpa using this

theorem add_one_ne {a : UInt64} (h : a.toNat + 1 ≠ 2 ^ 64) : a + 1 ≠ 0 := by
  intro e
  have := congrArg UInt64.toNat e
  rw [UInt64.toNat_add] at this
  have h1 : (1 : UInt64).toNat = 1 := rfl
  have h2 : (0 : UInt64).toNat = 0 := rfl
  have h3 := a.toNat_lt
  rw [h1, h2] at this
  omega

/-- What a launch that gossips has prepared. -/
theorem launchSnapshot_ok {web : Web} {snapshot : UInt64} {d d' : Disk} {g : Gossip}
    (h : launchSnapshot c lib web snapshot d = (d', .ok g)) :
    prepare c lib web snapshot d = (d', .ok ()) ∧ g.disk = d' ∧ g.number = d'.next - 1 ∧ d'.next ≠ 0 ∧
      blockHash lib (d'.open lib) g.number = some g.hash := by
  unfold launchSnapshot at h
  split at h
  · cases h
  · cases h
  · next d1 hp =>
    split at h
    · cases h
    · next hn =>
      split at h
      · cases h
      · next hash hb =>
        cases h
        exact ⟨hp, rfl, rfl, hn, hb⟩

theorem prepare_ok {web : Web} {snapshot : UInt64} {d d' : Disk} (h : prepare c lib web snapshot d = (d', .ok ())) :
    snapshot.toNat + 1 ≠ 2 ^ 64 ∧ ((d' = d ∧ d.next = snapshot + 1) ∨
      ∃ file hd, web.download snapshot = some file ∧ importAll c lib web.nodes web.block file (Disk.fresh lib) = (d', .ok hd)) := by
  unfold prepare at h
  split at h
  · cases h
  · split at h
    · cases h
    · next hs =>
      refine ⟨hs, ?_⟩
      split at h
      · next hn => cases h; exact .inl ⟨rfl, hn⟩
      · split at h
        · cases h
        · split at h
          · cases h
          · split at h
            · cases h
            · next file hf =>
              right
              cases hi : importAll c lib web.nodes web.block file (Disk.fresh lib) with
              | mk d1 r =>
                rw [hi] at h
                cases r with
                | err => cases h
                | panic => cases h
                | ok hd => cases h; exact ⟨file, hd, hf, hi⟩

end Snapshot

end Verif.StateBridge
