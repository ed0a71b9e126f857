import Verif.Lemmas.Reports

/-! # C114: the numbers that a node reports about itself are true -/

namespace Verif.Props
open Verif.Reports Verif.Props.ReportsSpec
open Verif.Capacity (Subnetwork)

/-- After every history each counter of messages is the number of messages of that kind that passed that way in that
network, whatever happened in the other networks of the node. -/
theorem C114_messages {E} (es : List (Event E)) (net : Subnetwork) (d : Direction) (l : Label) :
    (Node.init.run es).messages (protocolText net) d.text l.text = seen es net d l :=
  total_seen es net d l

/-- The counters of validations: how often content of the network was validated with a good end, and how often in all. -/
theorem C114_validations {E} (es : List (Event E)) (net : Subnetwork) :
    (Node.init.run es).validations (protocolText net) "true" = (es.filter (isGood net)).length ∧
    (Node.init.run es).validations (protocolText net) "true" + (Node.init.run es).validations (protocolText net) "false" =
      (es.filter (isValidation net)).length := by
  have ht := valid_run es net true
  have hf := valid_run es net false
  have hs := good_split es net
  exact ⟨ht.trans hs.1, by rw [← hs.2, ← ht, ← hf]; rfl⟩

/-- The line in the log. -/
theorem C114_summary {E} (es : List (Event E)) (net : Subnetwork) :
    (Node.init.run es).messageSummary net =
      s!"offers={seen es net .received .accept}/{seen es net .sent .offer}, accepts={seen es net .sent .accept}/{seen es net .received .offer}, validations={(es.filter (isGood net)).length}/{(es.filter (isValidation net)).length}" := by
  have hv := C114_validations es net
  unfold Node.messageSummary
  simp only [total_seen]
  rw [show (Node.init.run es).validationTotal net true = _ from hv.1,
    show (es.filter (isGood net)).length + (Node.init.run es).validationTotal net false = (es.filter (isValidation net)).length from by
      rw [← hv.2, ← hv.1]; rfl]

/-- No network receives more responses than it sent requests: each request is answered at most once, also when peers send
more, and when two requests happen to have the same number. -/
theorem C114_answered {E} (es : List (Event E)) (net : Subnetwork) : answered es net ≤ asked es net := by
  have h := answers_le es net
  unfold answers asks at h
  simp only [total_seen] at h
  exact h

/-- In the pair `accepts` the first number is at most the second, and so it is in the pair `validations`. -/
theorem C114_accepts {E} (es : List (Event E)) (net : Subnetwork) :
    seen es net .sent .accept ≤ seen es net .received .offer ∧
    (es.filter (isGood net)).length ≤ (es.filter (isValidation net)).length := by
  refine ⟨?_, ?_⟩
  · have h := accepts_le es net
    simp only [total_seen] at h
    exact h
  · have h := C114_validations es net
    omega

/-- In the pair `offers` it is, if no peer sends an ACCEPT for something else than an OFFER. -/
theorem C114_offers_partial {E} (es : List (Event E)) (net : Subnetwork) (h : AcceptsFit es) :
    seen es net .received .accept ≤ seen es net .sent .offer := by
  have h := offers_le es net h
  simp only [total_seen] at h
  exact h

/-- A peer that answers a PING with an ACCEPT makes the node report more accepted offers than it made. -/
theorem C114_offers_violated :
    (Node.init.run (E := Unit) [.send .state 7 (.ping ⟨1, .capabilities, []⟩), .answer .state 7 (some (.accept 0 []))]).messageSummary
      .state = "offers=1/0, accepts=0/0, validations=0/0" := by
  decide +kernel

/-- The gauges of the head of the chain. Once a header that is newer than the one of the start is known they show the
highest slot known, how far it was behind when the last slot began, and by how much each new slot was higher. -/
theorem C114_head_partial {σ} (s : ChainHead.Store σ) (ops : List (HeadOp σ))
    (hl : ∀ e ∈ ops.flatMap optimisticView, Small e) (hf : ∀ e ∈ ops.flatMap finalizedView, Small e) :
    Shows s.latest.slot (ops.flatMap optimisticView) ((Head.new s).run ops).optimistic ∧
    Shows s.finalized.slot (ops.flatMap finalizedView) ((Head.new s).run ops).finalized ∧
    ((Head.new s).run ops).store.latest.slot = newest s.latest.slot (ops.flatMap optimisticView) ∧
    ((Head.new s).run ops).store.finalized.slot = newest s.finalized.slot (ops.flatMap finalizedView) := by
  have h1 := latest_run ops (Head.new s)
  have h2 := finalized_run ops (Head.new s)
  have k1 := shows_run s.latest.slot _ hl
  have k2 := shows_run s.finalized.slot _ hf
  have e1 := congrArg Prod.fst h1
  have e2 := congrArg Prod.snd h1
  have f1 := congrArg Prod.fst h2
  have f2 := congrArg Prod.snd h2
  simp only at e1 e2 f1 f2
  rw [e1, e2, f1, f2]
  exact ⟨k1.2, k2.2, k1.1, k2.1⟩

/-- The observations of the delay are positive: a slot is reported only when it is higher than the one before. -/
theorem C114_delays {σ} (s : ChainHead.Store σ) (ops : List (HeadOp σ))
    (hl : ∀ e ∈ ops.flatMap optimisticView, Small e) (hf : ∀ e ∈ ops.flatMap finalizedView, Small e) :
    (∀ d ∈ ((Head.new s).run ops).optimistic.delays, 0 < d) ∧ (∀ d ∈ ((Head.new s).run ops).finalized.delays, 0 < d) := by
  have pos : ∀ (l : List Nat) (m : Nat), (∀ x ∈ (records m l).head?, m < x) ∧ ∀ d ∈ differences (records m l), 0 < d := by
    intro l
    induction l with
    | nil => intro m; exact ⟨by simp [records], by simp [records, differences]⟩
    | cons x xs ih =>
      intro m
      simp only [records]
      by_cases h : m < x
      · rw [if_pos h]
        refine ⟨by simp [h], ?_⟩
        have hx := ih x
        cases hr : records x xs with
        | nil => simp [differences]
        | cons y ys =>
          rw [hr] at hx
          intro d hd
          simp only [differences, List.mem_cons] at hd
          rcases hd with rfl | hd
          · have := hx.1 y (by simp); omega
          · exact hx.2 d hd
      · rw [if_neg h]; exact ih m
  have h := C114_head_partial s ops hl hf
  rw [h.1.delays, h.2.1.delays]
  exact ⟨(pos _ _).2, (pos _ _).2⟩

/-- Until a newer header is learnt the gauge shows slot 0, although the node has a header, and the lag 0, however far that
header is behind. -/
theorem C114_head_violated {σ} (s : ChainHead.Store σ) (cs : List Nat) (h : s.latest.slot < 2 ^ 63) (hpos : 0 < s.latest.slot) :
    ((Head.new s).run (cs.map .tick)).optimistic = ⟨0, 0, []⟩ ∧
    ((Head.new s).run (cs.map .tick)).store.latest.slot = s.latest.slot ∧
    (asI64 s.latest.slot : Int) ≠ ((Head.new s).run (cs.map .tick)).optimistic.slot := by
  have key : ∀ t : Head σ, t.optimistic = .init → t.store = s →
      (t.run (cs.map .tick)).optimistic = .init ∧ (t.run (cs.map .tick)).store = s := by
    induction cs with
    | nil => intro t h1 h2; exact ⟨h1, h2⟩
    | cons c cs ih =>
      intro t h1 h2
      exact ih (t.step (.tick c)) (by simp only [Head.step]; rw [h1]; rfl) h2
  have hk := key (Head.new s) rfl rfl
  refine ⟨hk.1, by rw [hk.2], ?_⟩
  rw [hk.1, asI64_small h]
  show (s.latest.slot : Int) ≠ 0
  omega

namespace ReportsExamples

/-- Two networks, a lost request, an answer that comes twice, an answer to a request that was sent in the other network. -/
def history : List (Event Unit) :=
  [.send .state 1 (.populatedOffer [([1], [2])]), .send .beacon 2 (.ping ⟨1, .capabilities, []⟩),
   .answer .state 1 (some (.accept 9 [0])), .answer .state 1 (some (.accept 9 [0])), .answer .state 2 (some (.accept 9 [0])),
   .receive .state (.offer [[3]]) true ⟨⟨1, .capabilities, []⟩, (1, []), none, some (5, [0])⟩,
   .receive .state (.offer [[4]]) true ⟨⟨1, .capabilities, []⟩, (1, []), none, none⟩,
   .answer .beacon 2 none,
   .validate .state .accepted .valid, .validate .state .lookup .valid, .validate .beacon .request .invalid]

example : (Node.init.run history).messageSummary .state = "offers=1/1, accepts=1/2, validations=1/2" := by decide +kernel
example : (Node.init.run history).messageSummary .beacon = "offers=0/0, accepts=0/0, validations=0/1" := by decide +kernel
example : seen history .state .received .accept = 1 ∧ seen history .beacon .sent .ping = 1 ∧
    answered history .beacon = 0 ∧ asked history .beacon = 1 := by decide +kernel

/-- A history that meets the hypothesis of `C114_offers_partial`, with an accepted offer. -/
example : AcceptsFit (E := Unit) [.send .state 1 (.offer [[1]]), .answer .state 1 (some (.accept 9 [0]))] := by
  intro past rest net id c k r h hr
  match past, h with
  | [], h => simp at h
  | [a], h =>
    simp only [List.cons_append, List.nil_append, List.cons.injEq] at h
    obtain ⟨h1, h2, _⟩ := h
    subst h1
    cases h2
    have : r = .offer [[1]] := by
      have hd : awaited (E := Unit) [.send .state 1 (.offer [[1]])] .state 1 = some (.offer [[1]]) := by decide +kernel
      rw [hd] at hr; exact (Option.some.inj hr).symm
    subst this; rfl
  | a :: b :: p, h => simp at h

def begin : ChainHead.Store Unit := ⟨⟨100, 0⟩, ⟨100, 0⟩, []⟩
def course : List (HeadOp Unit) :=
  [.tick 150, .op (.update ⟨140, 1⟩ ⟨96, 2⟩), .tick 151, .op (.optimisticUpdate ⟨151, 3⟩), .op (.optimisticUpdate ⟨149, 3⟩),
   .op (.finalityUpdate ⟨155, 4⟩ ⟨128, 5⟩), .tick 157, .op (.finalityUpdate ⟨156, 4⟩ ⟨160, 5⟩)]

example : ((Head.new begin).run course).optimistic = ⟨156, 2, [11, 4, 1]⟩ ∧
    ((Head.new begin).run course).finalized = ⟨160, 29, [32]⟩ := by decide +kernel
example : (∀ e ∈ course.flatMap optimisticView, Small e) ∧ (∀ e ∈ course.flatMap finalizedView, Small e) := by
  simp [course, optimisticView, finalizedView, Small]

end ReportsExamples

end Verif.Props
