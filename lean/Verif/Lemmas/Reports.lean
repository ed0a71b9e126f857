import Verif.Props.ReportsSpec

/-! # Lemmas for C114 -/

namespace Verif.Reports
open Verif.Props.ReportsSpec
open Verif.Wire (Request Response Message)
open Verif.Capacity (Subnetwork)

theorem protocolText_inj (a b : Subnetwork) : protocolText a = protocolText b ↔ a = b := by
  cases a <;> cases b <;> simp [protocolText]

theorem direction_inj (a b : Direction) : a.text = b.text ↔ a = b := by
  cases a <;> cases b <;> simp [Direction.text]

theorem label_inj (a b : Label) : a.text = b.text ↔ a = b := by
  cases a <;> cases b <;> simp [Label.text]

theorem bool_inj (a b : Bool) : boolText a = boolText b ↔ a = b := by
  cases a <;> cases b <;> simp [boolText]

theorem total_count (n : Node) (net m : Subnetwork) (d e : Direction) (l k : Label) :
    (n.count net d l).messageTotal m e k =
      n.messageTotal m e k + if net = m ∧ d = e ∧ l = k then 1 else 0 := by
  simp only [Node.messageTotal, Node.count, protocolText_inj, direction_inj, label_inj]
  by_cases h : net = m ∧ d = e ∧ l = k
  · obtain ⟨h1, h2, h3⟩ := h
    subst h1; subst h2; subst h3; simp
  · rw [if_neg h, if_neg (fun hc => h ⟨hc.1.symm, hc.2.1.symm, hc.2.2.symm⟩)]
    rfl

theorem total_setActive (n : Node) (net m : Subnetwork) (x) (e : Direction) (k : Label) :
    (n.setActive net x).messageTotal m e k = n.messageTotal m e k := rfl

theorem total_validation (n : Node) (net m : Subnetwork) (ok : Bool) (e : Direction) (k : Label) :
    (n.validation net ok).messageTotal m e k = n.messageTotal m e k := rfl

theorem label_request {E} (r : Request) : kindOf (r.toMessage (E := E)) = labelOfRequest r := by
  cases r <;> rfl

theorem label_response {E} (r : Response E) : kindOf r.toMessage = labelOfResponse r := by
  cases r <;> rfl

theorem replyTo_eq {E} (h : Handlers E) (r : Request) :
    replyTo h r = (handleRequest h r).map Response.toMessage := by
  cases r <;> simp [replyTo, handleRequest, Response.toMessage, Option.map_map] <;> rfl

/-- The request under a number in the map. -/
def look (l : List (Nat × Request)) (id : Nat) : Option Request := (l.find? fun x => x.1 = id).map (·.2)

theorem look_cons (l : List (Nat × Request)) (id k : Nat) (r : Request) :
    look ((id, r) :: l) k = if id = k then some r else look l k := by
  unfold look
  by_cases h : id = k <;> simp [h]

theorem look_filter (l : List (Nat × Request)) (id k : Nat) :
    look (l.filter fun x => x.1 ≠ id) k = if id = k then none else look l k := by
  induction l with
  | nil => simp [look]
  | cons x xs ih =>
    obtain ⟨i, r⟩ := x
    by_cases h : i = id
    · subst h
      rw [List.filter_cons_of_neg (by simp), ih, look_cons]
      by_cases hk : i = k <;> simp [hk]
    · rw [List.filter_cons_of_pos (by simpa using h), look_cons, look_cons, ih]
      by_cases hk : i = k
      · subst hk; simp [Ne.symm h]
      · simp [hk]

theorem look_any (l : List (Nat × Request)) (id : Nat) :
    l.any (fun x => x.1 = id) = (look l id).isSome := by
  induction l with
  | nil => rfl
  | cons x xs ih =>
    obtain ⟨i, r⟩ := x
    rw [look_cons, List.any_cons, ih]
    by_cases h : i = id <;> simp [h]

theorem look_mem {l : List (Nat × Request)} {id : Nat} {r : Request} (h : look l id = some r) : (id, r) ∈ l := by
  unfold look at h
  cases hf : l.find? (fun x => decide (x.1 = id)) with
  | none => rw [hf] at h; cases h
  | some x =>
    rw [hf] at h
    have h1 := List.find?_some hf
    have h2 := List.mem_of_find?_eq_some hf
    simp at h h1
    subst h; subst h1; exact h2

/-- The map holds what is awaited. -/
def Tracks {E} (past : List (Event E)) (n : Node) : Prop := ∀ net id, look (n.active net) id = awaited past net id

theorem awaited_snoc {E} (past : List (Event E)) (e : Event E) (net : Subnetwork) (id : Nat) :
    awaited (past ++ [e]) net id =
      if concerns net id e then (match e with | .send _ _ r => some r | _ => none) else awaited past net id := by
  unfold awaited
  rw [List.filter_append]
  by_cases h : concerns net id e = true
  · rw [List.filter_cons_of_pos h]; simp [h]; cases e <;> rfl
  · rw [List.filter_cons_of_neg h]; simp [h]

theorem active_count (n : Node) (net : Subnetwork) (d l) : (n.count net d l).active = n.active := rfl

theorem active_receive {E} (n : Node) (net : Subnetwork) (r : Request) (b : Bool) (h : Handlers E) :
    (n.step (.receive net r b h)).active = n.active := by
  simp only [Node.step, active_count]
  cases handleRequest h r <;> cases b <;> rfl

theorem active_answer {E} (n : Node) (net : Subnetwork) (id : Nat) (a : Option (Response E)) (m : Subnetwork) :
    (n.step (.answer net id a)).active m =
      if (n.active net).any (fun x => x.1 = id) ∧ m = net then (n.active net).filter fun x => x.1 ≠ id else n.active m := by
  simp only [Node.step]
  by_cases h : (n.active net).any (fun x => decide (x.1 = id)) = true
  · rw [if_pos h]
    by_cases hm : m = net
    · subst hm
      rw [if_pos ⟨h, rfl⟩]
      cases a <;> simp [Node.setActive, Node.count]
    · rw [if_neg (fun hc => hm hc.2)]
      cases a <;> simp [Node.setActive, Node.count, hm]
  · rw [if_neg h, if_neg (fun hc => h hc.1)]

theorem tracks_step {E} {past : List (Event E)} {n : Node} (ht : Tracks past n) (e : Event E) :
    Tracks (past ++ [e]) (n.step e) := by
  intro net id
  rw [awaited_snoc]
  cases e with
  | send m i r =>
    simp only [Node.step, active_count, Node.setActive, concerns]
    by_cases hm : net = m
    · subst hm
      rw [if_pos rfl, look_cons, look_filter]
      by_cases hi : i = id <;> simp [hi, ht net id]
    · rw [if_neg hm, ht net id]; simp [Ne.symm hm]
  | answer m i a =>
    rw [active_answer, look_any, ht m i]
    simp only [concerns]
    by_cases hm : net = m
    · subst hm
      by_cases hi : i = id
      · subst hi
        by_cases hs : (awaited past net i).isSome = true
        · simp only [hs, and_self, if_true]
          rw [look_filter]; simp
        · simp [hs, ht net i]; simpa using hs
      · by_cases hs : (awaited past net i).isSome = true
        · simp only [hs, and_self, if_true]
          rw [look_filter, if_neg hi, ht net id]; simp [hi]
        · simp [hs, ht net id, hi]
    · simp [hm, Ne.symm hm, ht net id]
  | receive m r b h => rw [active_receive, ht net id]; simp [concerns]
  | validate m s v => simpa [concerns, Node.step, Node.validation] using ht net id

theorem total_step {E} {past : List (Event E)} {n : Node} (ht : Tracks past n) (e : Event E)
    (net : Subnetwork) (d : Direction) (l : Label) :
    (n.step e).messageTotal net d l = n.messageTotal net d l + ((onTheWire past e).filter (isKind net d l)).length := by
  have one : ∀ (m : Subnetwork) (d' : Direction) (x : Message E) (k : Label), kindOf x = k →
      ([(m, d', x)].filter (isKind net d l)).length = if m = net ∧ d' = d ∧ k = l then 1 else 0 := by
    intro m d' x k hk
    subst hk
    by_cases h : m = net ∧ d' = d ∧ kindOf x = l
    · rw [List.filter_cons_of_pos (by simpa [isKind] using h), if_pos h]; rfl
    · rw [List.filter_cons_of_neg (by simpa [isKind] using h), if_neg h]; rfl
  cases e with
  | send m i r =>
    simp only [Node.step, onTheWire]
    rw [total_count, total_setActive, one _ _ _ _ (label_request r)]
  | answer m i a =>
    cases a with
    | none =>
      simp only [Node.step, onTheWire, List.filter_nil, List.length_nil, Nat.add_zero]
      split <;> rfl
    | some a =>
      simp only [Node.step, onTheWire]
      rw [look_any, ht m i]
      by_cases hs : (awaited past m i).isSome = true
      · rw [if_pos hs, if_pos hs, total_count, total_setActive, one _ _ _ _ (label_response a)]
      · rw [if_neg hs, if_neg hs]; rfl
  | receive m r b h =>
    simp only [Node.step, onTheWire]
    rw [total_count, replyTo_eq, ← List.singleton_append, List.filter_append, List.length_append,
      one _ _ _ _ (label_request r)]
    cases hr : handleRequest h r with
    | none => cases b <;> simp
    | some resp =>
      cases b with
      | false => simp
      | true =>
        simp only [Option.map_some, Option.toList, if_true]
        rw [total_count, one _ _ _ _ (label_response resp)]
        omega
  | validate m s v => rfl

theorem total_run {E} (es : List (Event E)) {past : List (Event E)} {n : Node} (ht : Tracks past n)
    (net : Subnetwork) (d : Direction) (l : Label) :
    (n.run es).messageTotal net d l = n.messageTotal net d l + ((traffic past es).filter (isKind net d l)).length := by
  induction es generalizing past n with
  | nil => rfl
  | cons e es ih =>
    rw [show n.run (e :: es) = (n.step e).run es from rfl, ih (tracks_step ht e), total_step ht]
    rw [show traffic past (e :: es) = onTheWire past e ++ traffic (past ++ [e]) es from rfl, List.filter_append,
      List.length_append]
    omega

theorem tracks_init {E} : Tracks ([] : List (Event E)) Node.init := fun _ _ => rfl

theorem total_seen {E} (es : List (Event E)) (net : Subnetwork) (d : Direction) (l : Label) :
    (Node.init.run es).messageTotal net d l = seen es net d l := by
  rw [total_run es tracks_init]; exact Nat.zero_add _

/-- An invariant of a history and the state after it. -/
theorem run_inv {E} (P : List (Event E) → Node → Prop) (h0 : P [] Node.init)
    (hs : ∀ past n e, P past n → P (past ++ [e]) (n.step e)) (es : List (Event E)) : P es (Node.init.run es) := by
  suffices h : ∀ es past n, P past n → P (past ++ es) (n.run es) by simpa using h es [] _ h0
  intro es
  induction es with
  | nil => intro past n h; rw [List.append_nil]; exact h
  | cons e es ih =>
    intro past n h
    have := ih (past ++ [e]) (n.step e) (hs past n e h)
    rw [show past ++ e :: es = (past ++ [e]) ++ es by simp]
    exact this

theorem tracks_run {E} (es : List (Event E)) : Tracks es (Node.init.run es) :=
  run_inv (fun past n => Tracks past n) tracks_init (fun _ _ e h => tracks_step h e) es

/-! ## Validations -/

theorem valid_step {E} (n : Node) (e : Event E) (net : Subnetwork) (ok : Bool) :
    (n.step e).validationTotal net ok = n.validationTotal net ok +
      if isValidation net e ∧ isGood net e = ok then 1 else 0 := by
  cases e with
  | send m i r => simp [isValidation]; rfl
  | answer m i a =>
    simp only [isValidation, Node.step]
    split
    · cases a <;> simp <;> rfl
    · simp
  | receive m r b h =>
    simp only [isValidation, Node.step]
    cases handleRequest h r <;> cases b <;> simp <;> rfl
  | validate m s v =>
    have hg : s.success v = decide (fine s v) := by cases s <;> cases v <;> rfl
    have hi : (isValidation net (Event.validate (E := E) m s v) = true ∧ isGood net (Event.validate (E := E) m s v) = ok) ↔
        (net = m ∧ ok = s.success v) := by
      rw [hg]
      simp only [isValidation, isGood, decide_eq_true_eq]
      constructor
      · rintro ⟨h1, h2⟩
        subst h1
        exact ⟨rfl, by rw [← h2]; simp⟩
      · rintro ⟨h1, h2⟩
        subst h1
        exact ⟨rfl, by rw [h2]; simp⟩
    simp only [Node.step, Node.validationTotal, Node.validation, protocolText_inj, bool_inj, hi]
    by_cases h : net = m ∧ ok = s.success v
    · rw [if_pos h, if_pos h]
    · rw [if_neg h, if_neg h]; rfl

theorem valid_run {E} (es : List (Event E)) (net : Subnetwork) (ok : Bool) :
    (Node.init.run es).validationTotal net ok =
      (es.filter fun e => isValidation net e ∧ isGood net e = ok).length := by
  refine run_inv (fun past n => n.validationTotal net ok = (past.filter fun e => isValidation net e ∧ isGood net e = ok).length)
    rfl ?_ es
  intro past n e h
  rw [valid_step, h, List.filter_append, List.length_append]
  congr 1
  by_cases hc : isValidation net e ∧ isGood net e = ok
  · rw [if_pos hc, List.filter_cons_of_pos (by simpa using hc)]; rfl
  · rw [if_neg hc, List.filter_cons_of_neg (by simpa using hc)]; rfl

theorem good_split {E} (es : List (Event E)) (net : Subnetwork) :
    (es.filter fun e => isValidation net e ∧ isGood net e = true).length = (es.filter (isGood net)).length ∧
    (es.filter fun e => isValidation net e ∧ isGood net e = true).length +
      (es.filter fun e => isValidation net e ∧ isGood net e = false).length = (es.filter (isValidation net)).length := by
  have hv : ∀ e : Event E, isGood net e = true → isValidation net e = true := by
    intro e; cases e <;> simp [isGood, isValidation]
    intro h _; exact h
  induction es with
  | nil => exact ⟨rfl, rfl⟩
  | cons e es ih =>
    obtain ⟨h1, h2⟩ := ih
    have := hv e
    cases hg : isGood net e <;> cases hi : isValidation net e <;> simp_all <;> omega

/-! ## Responses -/

theorem filter_lt (l : List (Nat × Request)) (id : Nat) (h : (look l id).isSome = true) :
    (l.filter fun x => x.1 ≠ id).length < l.length := by
  obtain ⟨r, hr⟩ := Option.isSome_iff_exists.1 h
  have hm := look_mem hr
  induction l with
  | nil => cases hm
  | cons x xs ih =>
    by_cases hx : x.1 = id
    · rw [List.filter_cons_of_neg (by simpa using hx)]
      exact Nat.lt_succ_of_le (List.length_filter_le _ _)
    · rw [List.filter_cons_of_pos (by simpa using hx), List.length_cons, List.length_cons]
      rw [look_cons (id := x.1) (r := x.2), if_neg hx] at hr
      rw [look_cons (id := x.1) (r := x.2), if_neg hx] at h
      have := ih h hr (look_mem hr)
      omega

/-- Requests sent so far. -/
def asks (n : Node) (net : Subnetwork) : Nat :=
  n.messageTotal net .sent .ping + n.messageTotal net .sent .findNodes + n.messageTotal net .sent .findContent +
    n.messageTotal net .sent .offer

/-- Responses received so far. -/
def answers (n : Node) (net : Subnetwork) : Nat :=
  n.messageTotal net .received .pong + n.messageTotal net .received .nodes + n.messageTotal net .received .content +
    n.messageTotal net .received .accept

theorem asks_request (n : Node) (m net : Subnetwork) (r : Request) :
    asks (n.count m .sent (labelOfRequest r)) net = asks n net + if m = net then 1 else 0 := by
  unfold asks
  simp only [total_count]
  by_cases h : m = net <;> cases r <;> simp [labelOfRequest, h] <;> omega

theorem asks_response {E} (n : Node) (m net : Subnetwork) (d : Direction) (r : Response E) :
    asks (n.count m d (labelOfResponse r)) net = asks n net := by
  unfold asks
  simp only [total_count]
  cases r <;> simp [labelOfResponse]

theorem asks_received (n : Node) (m net : Subnetwork) (l : Label) :
    asks (n.count m .received l) net = asks n net := by
  unfold asks
  simp only [total_count]
  simp

theorem answers_request (n : Node) (m net : Subnetwork) (d : Direction) (r : Request) :
    answers (n.count m d (labelOfRequest r)) net = answers n net := by
  unfold answers
  simp only [total_count]
  cases r <;> simp [labelOfRequest]

theorem answers_sent (n : Node) (m net : Subnetwork) (l : Label) :
    answers (n.count m .sent l) net = answers n net := by
  unfold answers
  simp only [total_count]
  simp

theorem answers_response {E} (n : Node) (m net : Subnetwork) (r : Response E) :
    answers (n.count m .received (labelOfResponse r)) net = answers n net + if m = net then 1 else 0 := by
  unfold answers
  simp only [total_count]
  by_cases h : m = net <;> cases r <;> simp [labelOfResponse, h] <;> omega

theorem asks_setActive (n : Node) (m net : Subnetwork) (l) : asks (n.setActive m l) net = asks n net := rfl
theorem answers_setActive (n : Node) (m net : Subnetwork) (l) : answers (n.setActive m l) net = answers n net := rfl

theorem answers_le_step {E} (n : Node) (e : Event E) (net : Subnetwork)
    (h : answers n net + (n.active net).length ≤ asks n net) :
    answers (n.step e) net + ((n.step e).active net).length ≤ asks (n.step e) net := by
  cases e with
  | send m i r =>
    simp only [Node.step, active_count]
    rw [asks_request, asks_setActive, answers_request, answers_setActive]
    simp only [Node.setActive]
    by_cases hm : net = m
    · subst hm
      have := List.length_filter_le (fun x : Nat × Request => decide (x.1 ≠ i)) (n.active net)
      rw [if_pos rfl, if_pos rfl, List.length_cons]
      omega
    · rw [if_neg hm, if_neg (Ne.symm hm)]; exact h
  | answer m i a =>
    rw [active_answer]
    by_cases ha : (n.active m).any (fun x => decide (x.1 = i)) = true
    · have hlt := filter_lt (n.active m) i (by rw [← look_any]; exact ha)
      simp only [Node.step, ha, if_true, true_and]
      cases a with
      | none =>
        simp only []
        rw [answers_setActive, asks_setActive]
        by_cases hm : net = m
        · subst hm; rw [if_pos rfl]; omega
        · rw [if_neg hm]; exact h
      | some a =>
        simp only []
        rw [answers_response, answers_setActive, asks_received, asks_setActive]
        by_cases hm : net = m
        · subst hm; rw [if_pos rfl, if_pos rfl]; omega
        · rw [if_neg hm, if_neg (Ne.symm hm)]; exact h
    · simp only [Node.step]
      rw [if_neg ha, if_neg (fun hc => ha hc.1)]; exact h
  | receive m r b hd =>
    rw [active_receive]
    simp only [Node.step]
    rw [answers_request, asks_received]
    cases handleRequest hd r with
    | none => cases b <;> exact h
    | some resp =>
      cases b with
      | false => exact h
      | true =>
        simp only []
        rw [answers_sent, asks_response]; exact h
  | validate m s v => exact h

theorem answers_le {E} (es : List (Event E)) (net : Subnetwork) :
    answers (Node.init.run es) net ≤ asks (Node.init.run es) net := by
  have := run_inv (fun (_ : List (Event E)) n => answers n net + (n.active net).length ≤ asks n net) (Nat.le_refl 0)
    (fun _ n e h => answers_le_step n e net h) es
  exact Nat.le_trans (Nat.le_add_right _ _) this

/-! ## Offers and accepts -/

theorem accepts_le_step {E} (n : Node) (e : Event E) (net : Subnetwork)
    (h : n.messageTotal net .sent .accept ≤ n.messageTotal net .received .offer) :
    (n.step e).messageTotal net .sent .accept ≤ (n.step e).messageTotal net .received .offer := by
  cases e with
  | send m i r =>
    simp only [Node.step, total_count, total_setActive]
    cases r <;> simp [labelOfRequest] <;> exact h
  | answer m i a =>
    simp only [Node.step]
    split
    · cases a with
      | none => exact h
      | some a => simp only [total_count, total_setActive]; simp; omega
    · exact h
  | receive m r b hd =>
    simp only [Node.step]
    cases r <;> simp only [handleRequest, labelOfRequest]
    · cases b <;> simp [total_count, labelOfResponse] <;> exact h
    · cases b <;> simp [total_count, labelOfResponse] <;> exact h
    · cases hd.content <;> cases b <;> simp [total_count, labelOfResponse] <;> exact h
    · cases hd.accept <;> cases b <;> simp [total_count, labelOfResponse] <;> (try split) <;> omega
    · cases b <;> simp [total_count] <;> split <;> omega
    · cases b <;> simp [total_count] <;> split <;> omega
  | validate m s v => exact h

theorem accepts_le {E} (es : List (Event E)) (net : Subnetwork) :
    (Node.init.run es).messageTotal net .sent .accept ≤ (Node.init.run es).messageTotal net .received .offer :=
  run_inv (fun (_ : List (Event E)) n => n.messageTotal net .sent .accept ≤ n.messageTotal net .received .offer)
    (Nat.le_refl 0) (fun _ n e h => accepts_le_step n e net h) es

/-- Offers without an answer. -/
def openOffers (l : List (Nat × Request)) : Nat := (l.filter fun x => labelOfRequest x.2 = .offer).length

theorem openOffers_filter_le (l : List (Nat × Request)) (id : Nat) :
    openOffers (l.filter fun x => x.1 ≠ id) ≤ openOffers l := by
  unfold openOffers
  rw [List.filter_filter]
  simp only [Bool.and_comm]
  rw [← List.filter_filter]
  exact List.length_filter_le _ _

theorem openOffers_filter_lt (l : List (Nat × Request)) (id : Nat) (r : Request) (hr : look l id = some r)
    (ho : labelOfRequest r = .offer) : openOffers (l.filter fun x => x.1 ≠ id) < openOffers l := by
  induction l with
  | nil => cases hr
  | cons x xs ih =>
    rw [show (x :: xs) = (x.1, x.2) :: xs from rfl, look_cons] at hr
    by_cases hx : x.1 = id
    · rw [if_pos hx] at hr
      have hx2 : x.2 = r := by simpa using hr
      rw [List.filter_cons_of_neg (by simpa using hx)]
      have := openOffers_filter_le xs id
      unfold openOffers at this ⊢
      rw [List.filter_cons_of_pos (by simp [hx2, ho]), List.length_cons]
      omega
    · rw [if_neg hx] at hr
      have := ih hr
      rw [List.filter_cons_of_pos (by simpa using hx)]
      unfold openOffers at this ⊢
      by_cases hl : labelOfRequest x.2 = .offer
      · rw [List.filter_cons_of_pos (by simpa using hl), List.filter_cons_of_pos (by simpa using hl)]
        simp only [List.length_cons]; omega
      · rw [List.filter_cons_of_neg (by simpa using hl), List.filter_cons_of_neg (by simpa using hl)]
        exact this

theorem offers_le_step {E} (n : Node) (e : Event E) (net : Subnetwork)
    (hfit : ∀ id c k r, e = .answer net id (some (.accept c k)) → look (n.active net) id = some r → labelOfRequest r = .offer)
    (h : n.messageTotal net .received .accept + openOffers (n.active net) ≤ n.messageTotal net .sent .offer) :
    (n.step e).messageTotal net .received .accept + openOffers ((n.step e).active net) ≤
      (n.step e).messageTotal net .sent .offer := by
  cases e with
  | send m i r =>
    simp only [Node.step, active_count, total_count, total_setActive]
    simp only [Node.setActive]
    by_cases hm : net = m
    · subst hm
      have := openOffers_filter_le (n.active net) i
      rw [if_pos rfl]
      unfold openOffers at this h ⊢
      by_cases ho : labelOfRequest r = .offer
      · rw [List.filter_cons_of_pos (by simpa using ho), List.length_cons]
        simp [ho]; simp at this; omega
      · rw [List.filter_cons_of_neg (by simpa using ho)]
        simp [ho]; simp at this; omega
    · rw [if_neg hm]; simp [Ne.symm hm]; exact h
  | answer m i a =>
    rw [active_answer]
    by_cases ha : (n.active m).any (fun x => decide (x.1 = i)) = true
    · have hle := openOffers_filter_le (n.active m) i
      simp only [Node.step, ha, if_true, true_and]
      cases a with
      | none =>
        simp only [total_setActive]
        by_cases hm : net = m
        · subst hm; rw [if_pos rfl]; omega
        · rw [if_neg hm]; exact h
      | some a =>
        simp only [total_count, total_setActive]
        by_cases hm : net = m
        · subst hm
          rw [if_pos rfl]
          cases a with
          | accept c k =>
            rw [look_any] at ha
            obtain ⟨r, hr⟩ := Option.isSome_iff_exists.1 ha
            have hlt := openOffers_filter_lt _ i r hr (hfit i c k r rfl hr)
            simp [labelOfResponse] at hlt ⊢; omega
          | pong _ => simp [labelOfResponse] at hle ⊢; omega
          | nodes _ _ => simp [labelOfResponse] at hle ⊢; omega
          | content _ => simp [labelOfResponse] at hle ⊢; omega
        · rw [if_neg hm]; simp [Ne.symm hm]; exact h
    · simp only [Node.step]
      rw [if_neg ha, if_neg (fun hc => ha hc.1)]; exact h
  | receive m r b hd =>
    rw [active_receive]
    simp only [Node.step]
    have hl : labelOfRequest r ≠ .accept := by cases r <;> simp [labelOfRequest]
    rw [total_count, total_count]
    simp only [hl, and_false, if_false, reduceCtorEq, false_and]
    cases handleRequest hd r with
    | none => cases b <;> exact h
    | some resp =>
      cases b with
      | false => exact h
      | true =>
        simp only [total_count]
        cases resp <;> simp [labelOfResponse] <;> exact h
  | validate m s v => exact h

theorem offers_le {E} (es : List (Event E)) (net : Subnetwork) (hf : AcceptsFit es) :
    (Node.init.run es).messageTotal net .received .accept ≤ (Node.init.run es).messageTotal net .sent .offer := by
  have := run_inv (fun (past : List (Event E)) n => Tracks past n ∧ (AcceptsFit past →
      n.messageTotal net .received .accept + openOffers (n.active net) ≤ n.messageTotal net .sent .offer))
    ⟨tracks_init, fun _ => Nat.le_refl 0⟩ (fun past n e h => ⟨tracks_step h.1 e, fun hfit => by
      refine offers_le_step n e net ?_ (h.2 ?_)
      · intro id c k r he hr
        subst he
        rw [h.1 net id] at hr
        rw [← label_request (E := E)]
        exact hfit past [] net id c k r rfl hr
      · intro p rest m id c k r hp hr
        exact hfit p (rest ++ [e]) m id c k r (by rw [hp]; simp) hr⟩) es
  exact Nat.le_trans (Nat.le_add_right _ _) (this.2 hf)

/-! ## The head of the chain -/

/-- One head with its gauge. -/
def headStep (x : Nat × Gauge) : Ev → Nat × Gauge
  | .tick c => (x.1, x.2.onSlot c)
  | .learn s => if x.1 < s then (s, x.2.report s) else x

def headRun (x : Nat × Gauge) (es : List Ev) : Nat × Gauge := es.foldl headStep x

theorem headRun_append (x : Nat × Gauge) (a b : List Ev) : headRun x (a ++ b) = headRun (headRun x a) b := by
  simp [headRun, List.foldl_append]

theorem latest_step {σ} (s : Head σ) (o : HeadOp σ) :
    ((s.step o).store.latest.slot, (s.step o).optimistic) =
      headRun (s.store.latest.slot, s.optimistic) (optimisticView o) := by
  rcases o with c | (⟨a, f⟩ | a | ⟨a, f⟩ | l)
  · rfl
  · simp only [Head.step, Head.updateLatest, Head.updateFinalized, optimisticView, headRun, List.foldl_cons,
      List.foldl_nil, headStep, ChainHead.Store.updateLatest, ChainHead.Store.updateFinalized]
    by_cases h : s.store.latest.slot < a.slot <;> simp only [h, if_true, if_false] <;> split <;> rfl
  · simp only [Head.step, Head.updateLatest, optimisticView, headRun, List.foldl_cons,
      List.foldl_nil, headStep, ChainHead.Store.updateLatest]
    by_cases h : s.store.latest.slot < a.slot <;> simp only [h, if_true, if_false]
  · simp only [Head.step, Head.updateLatest, Head.updateFinalized, optimisticView, headRun, List.foldl_cons,
      List.foldl_nil, headStep, ChainHead.Store.updateLatest, ChainHead.Store.updateFinalized]
    by_cases h : s.store.latest.slot < a.slot <;> simp only [h, if_true, if_false] <;> split <;> rfl
  · simp only [Head.step, ChainHead.Store.updateSummaries, optimisticView, headRun, List.foldl_nil]
    split <;> rfl

theorem finalized_step {σ} (s : Head σ) (o : HeadOp σ) :
    ((s.step o).store.finalized.slot, (s.step o).finalized) =
      headRun (s.store.finalized.slot, s.finalized) (finalizedView o) := by
  rcases o with c | (⟨a, f⟩ | a | ⟨a, f⟩ | l)
  · rfl
  · simp only [Head.step, Head.updateLatest, Head.updateFinalized, finalizedView, headRun, List.foldl_cons,
      List.foldl_nil, headStep, ChainHead.Store.updateLatest, ChainHead.Store.updateFinalized]
    by_cases h : s.store.latest.slot < a.slot <;> by_cases h2 : s.store.finalized.slot < f.slot <;>
      simp only [h, h2, if_true, if_false]
  · simp only [Head.step, Head.updateLatest, finalizedView, headRun, List.foldl_nil, ChainHead.Store.updateLatest]
    split <;> rfl
  · simp only [Head.step, Head.updateLatest, Head.updateFinalized, finalizedView, headRun, List.foldl_cons,
      List.foldl_nil, headStep, ChainHead.Store.updateLatest, ChainHead.Store.updateFinalized]
    by_cases h : s.store.latest.slot < a.slot <;> by_cases h2 : s.store.finalized.slot < f.slot <;>
      simp only [h, h2, if_true, if_false]
  · simp only [Head.step, ChainHead.Store.updateSummaries, finalizedView, headRun, List.foldl_nil]
    split <;> rfl

theorem latest_run {σ} (ops : List (HeadOp σ)) (s : Head σ) :
    ((s.run ops).store.latest.slot, (s.run ops).optimistic) =
      headRun (s.store.latest.slot, s.optimistic) (ops.flatMap optimisticView) := by
  induction ops generalizing s with
  | nil => rfl
  | cons o os ih =>
    rw [List.flatMap_cons, headRun_append, ← latest_step]
    exact ih (s.step o)

theorem finalized_run {σ} (ops : List (HeadOp σ)) (s : Head σ) :
    ((s.run ops).store.finalized.slot, (s.run ops).finalized) =
      headRun (s.store.finalized.slot, s.finalized) (ops.flatMap finalizedView) := by
  induction ops generalizing s with
  | nil => rfl
  | cons o os ih =>
    rw [List.flatMap_cons, headRun_append, ← finalized_step]
    exact ih (s.step o)

theorem asI64_small {n : Nat} (h : n < 2 ^ 63) : asI64 n = n := by
  unfold asI64
  rw [BitVec.toInt_eq_toNat_of_lt (by rw [BitVec.toNat_ofNat]; omega), BitVec.toNat_ofNat, Nat.mod_eq_of_lt (by omega)]

theorem learnt_append (a b : List Ev) : learnt (a ++ b) = learnt a ++ learnt b := by
  induction a with
  | nil => rfl
  | cons e es ih => cases e <;> simp [learnt, ih]

theorem newest_snoc (start : Nat) (es : List Ev) (e : Ev) :
    newest start (es ++ [e]) = match e with | .learn s => max (newest start es) s | .tick _ => newest start es := by
  unfold newest
  rw [learnt_append, List.foldl_append]
  cases e <;> rfl

theorem newest_ge (start : Nat) (es : List Ev) : start ≤ newest start es := by
  unfold newest
  generalize learnt es = l
  induction l generalizing start with
  | nil => exact Nat.le_refl _
  | cons x xs ih => exact Nat.le_trans (Nat.le_max_left start x) (ih _)

theorem records_snoc (m : Nat) (l : List Nat) (x : Nat) :
    records m (l ++ [x]) = records m l ++ if l.foldl max m < x then [x] else [] := by
  induction l generalizing m with
  | nil => rfl
  | cons y ys ih =>
    have hmax : (y :: ys).foldl max m = ys.foldl max (max m y) := rfl
    rw [hmax]
    simp only [List.cons_append, records]
    by_cases h : m < y
    · rw [if_pos h, if_pos h, ih, Nat.max_eq_right (by omega)]; rfl
    · rw [if_neg h, if_neg h, ih, Nat.max_eq_left (by omega)]

theorem records_last (m : Nat) (l : List Nat) :
    (records m l).getLast? = if l.foldl max m = m then none else some (l.foldl max m) := by
  induction l generalizing m with
  | nil => simp [records]
  | cons y ys ih =>
    have hge : ∀ k, k ≤ ys.foldl max k := fun k => by
      clear ih
      induction ys generalizing k with
      | nil => exact Nat.le_refl _
      | cons x xs ih => exact Nat.le_trans (Nat.le_max_left k x) (ih _)
    have hmax : (y :: ys).foldl max m = ys.foldl max (max m y) := rfl
    rw [hmax]
    simp only [records]
    by_cases h : m < y
    · rw [if_pos h, Nat.max_eq_right (by omega), List.getLast?_cons, ih]
      have := hge y
      rw [if_neg (by omega : ¬ ys.foldl max y = m)]
      by_cases hy : ys.foldl max y = y
      · rw [if_pos hy, hy]; rfl
      · rw [if_neg hy]; rfl
    · rw [if_neg h, Nat.max_eq_left (by omega), ih]

theorem differences_snoc (l : List Nat) (x : Nat) :
    differences (l ++ [x]) = differences l ++ match l.getLast? with | some y => [(x : Int) - y] | none => [] := by
  induction l with
  | nil => rfl
  | cons a as ih =>
    cases as with
    | nil => rfl
    | cons b bs =>
      simp only [List.cons_append, differences] at ih ⊢
      rw [ih]
      simp [List.getLast?_cons_cons]

theorem shows_run (start : Nat) (es : List Ev) (hs : ∀ e ∈ es, Small e) :
    (headRun (start, .init) es).1 = newest start es ∧ Shows start es (headRun (start, .init) es).2 := by
  have key : ∀ n, ∀ es : List Ev, es.length = n → (∀ e ∈ es, Small e) →
      (headRun (start, .init) es).1 = newest start es ∧ Shows start es (headRun (start, .init) es).2 := by
    intro n
    induction n with
    | zero =>
      intro es hl _
      have : es = [] := List.eq_nil_of_length_eq_zero hl
      subst this
      refine ⟨rfl, ⟨?_, ?_, ?_, rfl⟩⟩
      · simp [newest, learnt, headRun, Gauge.init]
      · intro pre c post h; simp at h
      · intro _; rfl
    | succ n ih =>
      intro es hl hsm
      obtain ⟨pre, e, rfl⟩ : ∃ pre e, es = pre ++ [e] := by
        have hne : es ≠ [] := by intro h; subst h; cases hl
        exact ⟨es.dropLast, es.getLast hne, (List.dropLast_concat_getLast hne).symm⟩
      have hl' : pre.length = n := by simpa using hl
      obtain ⟨hk, hsh⟩ := ih pre hl' (fun x hx => hsm x (List.mem_append_left _ hx))
      have hE : Small e := hsm e (by simp)
      rw [headRun_append]
      generalize headRun (start, Gauge.init) pre = x at hk hsh
      obtain ⟨k, g⟩ := x
      simp only at hk hsh
      subst hk
      have hge := newest_ge start pre
      have hlast : ∀ (p : List Ev) (c : Nat) (post : List Ev), pre ++ [e] = p ++ .tick c :: post →
          (post = [] ∧ p = pre ∧ e = .tick c) ∨ ∃ post', post = post' ++ [e] ∧ pre = p ++ .tick c :: post' := by
        intro p c post h
        rcases List.eq_nil_or_concat post with hp | ⟨post', y, hp⟩
        · subst hp
          have h' : pre ++ [e] = p ++ [.tick c] := h
          have := List.append_inj' h' rfl
          exact Or.inl ⟨rfl, this.1.symm, by simpa using this.2⟩
        · rw [List.concat_eq_append] at hp
          subst hp
          have h' : pre ++ [e] = (p ++ .tick c :: post') ++ [y] := by rw [h]; simp
          have := List.append_inj' h' rfl
          have hy : e = y := by simpa using this.2
          subst hy
          exact Or.inr ⟨post', rfl, this.1⟩
      cases e with
      | tick c =>
        have hc : c < 2 ^ 63 := hE
        have hpos : g.slot > 0 ↔ newest start pre ≠ start := by
          rw [hsh.slot]
          by_cases h : newest start pre = start
          · rw [if_pos h]; simp [h]
          · rw [if_neg h]; constructor
            · intro _; exact h
            · intro _; omega
        have hshape : headRun (newest start pre, g) [.tick c] = (newest start pre, g.onSlot c) := rfl
        rw [hshape, newest_snoc]
        refine ⟨rfl, ⟨?_, ?_, ?_, ?_⟩⟩
        · rw [newest_snoc]
          simp only []
          rw [← hsh.slot]
          unfold Gauge.onSlot; split <;> rfl
        · intro p c' post h hno
          rcases hlast p c' post h with ⟨h1, h2, h3⟩ | ⟨post', h1, _⟩
          · cases h3
            subst h2
            unfold Gauge.onSlot
            by_cases hp : g.slot > 0
            · rw [if_pos hp, if_neg (hpos.1 hp)]
              simp only []
              rw [asI64_small hc, hsh.slot, if_neg (hpos.1 hp)]
            · rw [if_neg hp]
              have heq : newest start p = start := Classical.byContradiction fun hne => hp (hpos.2 hne)
              rw [if_pos heq]
              -- nothing was learnt, so no earlier tick has set the lag
              have : ∀ q : List Ev, (∃ r, p = q ++ r) → newest start q = start := by
                rintro q ⟨r, hr⟩
                have h1 := newest_ge start q
                have h2 : newest start q ≤ newest start p := by
                  rw [hr]; unfold newest; rw [learnt_append, List.foldl_append]
                  generalize (learnt q).foldl max start = b
                  generalize learnt r = l
                  induction l generalizing b with
                  | nil => exact Nat.le_refl _
                  | cons x xs ih => exact Nat.le_trans (Nat.le_max_left b x) (ih _)
                omega
              by_cases ht : ∀ e ∈ p, ¬ IsTick e
              · exact hsh.noLag ht
              · -- the last tick in `p`
                have : ∀ p' : List Ev, (¬ ∀ e ∈ p', ¬ IsTick e) → ∃ a c b, p' = a ++ Ev.tick c :: b ∧ ∀ e ∈ b, ¬ IsTick e := by
                  intro p' hp'
                  induction p' with
                  | nil => exact absurd (by simp) hp'
                  | cons y ys ih =>
                    by_cases hys : ∀ e ∈ ys, ¬ IsTick e
                    · cases y with
                      | tick d => exact ⟨[], d, ys, rfl, hys⟩
                      | learn d =>
                        exact absurd (by
                          intro e he
                          rcases List.mem_cons.1 he with rfl | he
                          · exact id
                          · exact hys e he) hp'
                    · obtain ⟨a, d, b, h1, h2⟩ := ih hys
                      exact ⟨y :: a, d, b, by rw [h1]; rfl, h2⟩
                obtain ⟨a, d, b, h1, h2⟩ := this p ht
                rename_i hq
                rw [hsh.lag a d b h1 h2, if_pos (hq a ⟨_, h1⟩)]
          · exact absurd trivial (hno (.tick c) (by rw [h1]; simp))
        · intro h; exact absurd trivial (h (.tick c) (by simp))
        · rw [learnt_append]
          simp only [learnt, List.append_nil]
          rw [← hsh.delays]
          unfold Gauge.onSlot; split <;> rfl
      | learn s =>
        have hss : s < 2 ^ 63 := hE
        rw [newest_snoc]
        simp only []
        by_cases h : newest start pre < s
        · have hshape : headRun (newest start pre, g) [.learn s] = (s, g.report s) := by
            simp [headRun, headStep, h]
          rw [hshape, Nat.max_eq_right (by omega)]
          have hlag : (g.report s).lag = g.lag := by unfold Gauge.report; split <;> rfl
          refine ⟨rfl, ⟨?_, ?_, ?_, ?_⟩⟩
          · rw [newest_snoc]
            simp only []
            rw [Nat.max_eq_right (by omega), if_neg (by omega)]
            exact asI64_small hss
          · intro p c' post hp hno
            rw [hlag]
            rcases hlast p c' post hp with ⟨_, _, h3⟩ | ⟨post', h1, h2⟩
            · cases h3
            · exact hsh.lag p c' post' h2 (fun x hx => hno x (by rw [h1]; exact List.mem_append_left _ hx))
          · intro hno
            rw [hlag]
            exact hsh.noLag (fun x hx => hno x (List.mem_append_left _ hx))
          · rw [learnt_append]
            simp only [learnt]
            rw [records_snoc, if_pos (show (learnt pre).foldl max start < s from h), differences_snoc, records_last]
            unfold Gauge.report
            rw [hsh.slot, ← hsh.delays]
            by_cases heq : newest start pre = start
            · rw [if_pos heq, if_neg (by omega), if_pos (show (learnt pre).foldl max start = start from heq)]; simp
            · rw [if_neg heq, if_pos (by omega), if_neg (show ¬ (learnt pre).foldl max start = start from heq)]
              rfl
        · have hshape : headRun (newest start pre, g) [.learn s] = (newest start pre, g) := by
            simp [headRun, headStep, h]
          rw [hshape, Nat.max_eq_left (by omega)]
          refine ⟨rfl, ⟨?_, ?_, ?_, ?_⟩⟩
          · rw [newest_snoc]
            simp only []
            rw [Nat.max_eq_left (by omega)]
            exact hsh.slot
          · intro p c' post hp hno
            rcases hlast p c' post hp with ⟨_, _, h3⟩ | ⟨post', h1, h2⟩
            · cases h3
            · exact hsh.lag p c' post' h2 (fun x hx => hno x (by rw [h1]; exact List.mem_append_left _ hx))
          · intro hno
            exact hsh.noLag (fun x hx => hno x (List.mem_append_left _ hx))
          · rw [learnt_append]
            simp only [learnt]
            rw [records_snoc, if_neg (show ¬ (learnt pre).foldl max start < s from h), List.append_nil]
            exact hsh.delays
  exact key _ es rfl hs

end Verif.Reports
