import Verif.Model.Events
import Verif.Props.Hex
import Verif.Props.EventsSpec
import Verif.Lemmas.QueryFinish

/-! # Lemmas on the routing of requests and events -/

namespace Verif.Events
open Verif.E2store (Res)
open Verif.Capacity (Subnetwork)
open Verif.Props.EventsSpec

theorem upper_inj {a b : Bytes} (h : Hex.hexEncodeUpper a = Hex.hexEncodeUpper b) : a = b := by
  have h1 := (Verif.Props.C44_roundtrip a).2
  rw [h, (Verif.Props.C44_roundtrip b).2] at h1
  exact (Except.ok.inj h1).symm

theorem mainnetIds_eq : mainnetIds =
    [(.history, Hex.hexEncodeUpper [0x50, 0x00]), (.state, Hex.hexEncodeUpper [0x50, 0x0a]),
     (.legacyHistory, Hex.hexEncodeUpper [0x50, 0x0b]), (.beacon, Hex.hexEncodeUpper [0x50, 0x0c]),
     (.canonicalIndices, Hex.hexEncodeUpper [0x50, 0x0d]),
     (.verkleState, Hex.hexEncodeUpper [0x50, 0x0e]),
     (.transactionGossip, Hex.hexEncodeUpper [0x50, 0x0f]),
     (.utp, Hex.hexEncodeUpper [0x75, 0x74, 0x70])] := by decide +kernel

theorem angelfoodIds_eq : angelfoodIds =
    [(.state, Hex.hexEncodeUpper [0x50, 0x4a]),
     (.legacyHistory, Hex.hexEncodeUpper [0x50, 0x4b]), (.beacon, Hex.hexEncodeUpper [0x50, 0x4c]),
     (.canonicalIndices, Hex.hexEncodeUpper [0x50, 0x4d]),
     (.verkleState, Hex.hexEncodeUpper [0x50, 0x4e]),
     (.transactionGossip, Hex.hexEncodeUpper [0x50, 0x4f]),
     (.utp, Hex.hexEncodeUpper [0x75, 0x74, 0x70])] := by decide +kernel

theorem sepoliaIds_eq : sepoliaIds =
    [(.state, Hex.hexEncodeUpper [0x50, 0x4a]),
     (.legacyHistory, Hex.hexEncodeUpper [0x50, 0x4b]), (.beacon, Hex.hexEncodeUpper [0x50, 0x4c]),
     (.canonicalIndices, Hex.hexEncodeUpper [0x50, 0x4d]),
     (.verkleState, Hex.hexEncodeUpper [0x50, 0x4e]),
     (.transactionGossip, Hex.hexEncodeUpper [0x50, 0x4f]),
     (.utp, Hex.hexEncodeUpper [0x75, 0x74, 0x70])] := by decide +kernel

theorem upper_decide (a b : Bytes) :
    decide (Hex.hexEncodeUpper a = Hex.hexEncodeUpper b) = decide (a = b) := by
  by_cases h : a = b
  · simp [h]
  · simp only [h, decide_false, decide_eq_false_iff_not]
    exact fun hc => h (upper_inj hc)

/-- The identifiers of the code are those of the specification. -/
theorem identifierOf_eq (net : Network) (s : Subnetwork) :
    identifierOf net s = (wireId net s).map Hex.hexEncodeUpper := by
  cases net <;> cases s <;> decide +kernel

theorem sendProtocol_eq (net : Network) (s : Subnetwork) :
    sendProtocol net s = match wireId net s with
      | some bs => .ok bs
      | none => .panic := by
  unfold sendProtocol
  rw [identifierOf_eq]
  cases wireId net s with
  | none => rfl
  | some bs => simp only [Option.map_some, (Verif.Props.C44_roundtrip bs).2]

theorem subnetworkOf_upper (net : Network) (p : Bytes) (s : Subnetwork) :
    subnetworkOf net (Hex.hexEncodeUpper p) = some s ↔ wireId net s = some p := by
  cases net
  · simp only [subnetworkOf, ids, Bimap.getByRight, mainnetIds_eq, List.find?_cons, upper_decide,
      List.find?_nil]
    constructor
    · intro h
      repeat' split at h
      all_goals first
        | (rename_i hp; simp only [decide_eq_true_eq] at hp; subst hp; cases h; rfl)
        | cases h
    · intro h
      cases s <;> (cases h; decide +kernel)
  · simp only [subnetworkOf, ids, Bimap.getByRight, angelfoodIds_eq, List.find?_cons, upper_decide,
      List.find?_nil]
    constructor
    · intro h
      repeat' split at h
      all_goals first
        | (rename_i hp; simp only [decide_eq_true_eq] at hp; subst hp; cases h; rfl)
        | cases h
    · intro h
      cases s <;> (cases h; try decide +kernel)
  · simp only [subnetworkOf, ids, Bimap.getByRight, sepoliaIds_eq, List.find?_cons, upper_decide,
      List.find?_nil]
    constructor
    · intro h
      repeat' split at h
      all_goals first
        | (rename_i hp; simp only [decide_eq_true_eq] at hp; subst hp; cases h; rfl)
        | cases h
    · intro h
      cases s <;> (cases h; try decide +kernel)

/-- A step never changes which network it is. -/
theorem step_net (n : Node) (i : Input) : (step n i).net = n.net := by
  cases i with
  | talk r =>
    simp only [step, dispatchTalk]
    split <;> rfl
  | event e =>
    simp only [step, dispatchEvent]
    repeat' split
    all_goals rfl
  | lagged _ => rfl
  | gone s => cases s <;> rfl

theorem contains_recipients (e : Event) (s : Subnetwork)
    (hs : s = .legacyHistory ∨ s = .beacon ∨ s = .state) :
    (recipients e).contains s = true ↔
      e.source ≠ s ∧ ∀ ds, e.destination = some ds → s ∈ ds := by
  simp only [List.contains_iff_mem, recipients, List.mem_filter, decide_not, Bool.not_eq_eq_eq_not,
    Bool.not_true, decide_eq_false_iff_not]
  cases e.destination with
  | none =>
    simp only [Option.getD_none, reduceCtorEq, false_implies, implies_true, and_true]
    constructor
    · intro h hc; exact h.2 hc.symm
    · intro h
      refine ⟨?_, fun hc => h hc.symm⟩
      rcases hs with rfl | rfl | rfl <;> simp
  | some ds =>
    simp only [Option.getD_some, Option.some.injEq, forall_eq']
    constructor
    · intro h; exact ⟨fun hc => h.2 hc.symm, h.1⟩
    · intro h; exact ⟨h.2, fun hc => h.1 hc.symm⟩

/-- The channel of a party. -/
def chan (n : Node) : Party → Option Chan
  | .legacyHistory => n.legacyHistory
  | .state => n.state
  | .beacon => n.beacon
  | .utp => some n.utp

theorem inbox_eq (n : Node) (p : Party) : inbox n p = (chan n p).map (·.queue) := by
  cases p <;> rfl

theorem listens_eq (n : Node) (p : Party) : listens n p = (chan n p).any (·.alive) := by
  cases p <;> rfl

theorem sendOverlay_eq (tx : Option Chan) (m : Msg) : sendOverlay tx m = tx.map (·.send m) := by
  cases tx <;> rfl

theorem chan_talk (n : Node) (r : TalkReq) (p : Party) :
    chan (dispatchTalk n r) p =
      if some r.protocol = wireId n.net p.sub then (chan n p).map (·.send (.talk r))
      else chan n p := by
  have key : ∀ s, subnetworkOf n.net (Hex.hexEncodeUpper r.protocol) = some s ↔
    wireId n.net s = some r.protocol := fun s => subnetworkOf_upper n.net r.protocol s
  unfold dispatchTalk
  cases hs : subnetworkOf n.net (Hex.hexEncodeUpper r.protocol) with
  | none =>
    have : ¬ (some r.protocol = wireId n.net p.sub) := by
      intro h
      have := (key p.sub).2 h.symm
      rw [hs] at this
      cases this
    simp only [this, if_false]
  | some s =>
    rw [hs] at key
    have hiff : (some r.protocol = wireId n.net p.sub) ↔ s = p.sub := by
      rw [eq_comm, ← key p.sub]
      exact ⟨fun h => Option.some.inj h, fun h => by rw [h]⟩
    simp only [hiff]
    cases s <;> cases p <;>
      simp [chan, Party.sub, sendOverlay_eq]

theorem chan_event (n : Node) (e : Event) (p : Party) :
    chan (dispatchEvent n e) p =
      if p ≠ .utp ∧ e.source ≠ p.sub ∧ (∀ ds, e.destination = some ds → p.sub ∈ ds) then
        (chan n p).map (·.send (.event e))
      else chan n p := by
  have hb := contains_recipients e .beacon (Or.inr (Or.inl rfl))
  have hs := contains_recipients e .state (Or.inr (Or.inr rfl))
  have hl := contains_recipients e .legacyHistory (Or.inl rfl)
  unfold dispatchEvent
  simp only
  cases p
  · simp only [ne_eq, reduceCtorEq, not_false_eq_true, true_and, Party.sub]
    by_cases h : (recipients e).contains .legacyHistory = true
    · rw [if_pos h, if_pos (hl.1 h)]
      simp only [chan, sendOverlay_eq]
      repeat' split
      all_goals rfl
    · rw [if_neg h, if_neg (fun hc => h (hl.2 hc))]
      simp only [chan]
      repeat' split
      all_goals rfl
  · simp only [ne_eq, reduceCtorEq, not_false_eq_true, true_and, Party.sub]
    by_cases h : (recipients e).contains .state = true
    · rw [if_pos (hs.1 h)]
      simp only [h, if_true]
      repeat' split
      all_goals simp only [chan, sendOverlay_eq]
    · rw [if_neg (fun hc => h (hs.2 hc))]
      simp only [h, Bool.false_eq_true, if_false]
      repeat' split
      all_goals rfl
  · simp only [ne_eq, reduceCtorEq, not_false_eq_true, true_and, Party.sub]
    by_cases h : (recipients e).contains .beacon = true
    · rw [if_pos (hb.1 h)]
      simp only [h, if_true]
      repeat' split
      all_goals simp only [chan, sendOverlay_eq]
    · rw [if_neg (fun hc => h (hb.2 hc))]
      simp only [h, Bool.false_eq_true, if_false]
      repeat' split
      all_goals rfl
  · simp only [ne_eq, not_true_eq_false, false_and, if_false, chan]
    repeat' split
    all_goals rfl

/-- One step, as a party sees it. -/
theorem chan_step (n : Node) (i : Input) (p : Party) :
    chan (step n i) p =
      if i = .gone p.sub then (chan n p).map fun c => { c with alive := false }
      else match meantFor n.net p i with
        | some m => (chan n p).map (·.send m)
        | none => chan n p := by
  cases i with
  | talk r =>
    simp only [step, reduceCtorEq, if_false, meantFor, chan_talk]
    by_cases h : some r.protocol = wireId n.net p.sub
    · simp only [h, if_true]
    · simp only [h, if_false]
  | event e =>
    simp only [step, reduceCtorEq, if_false, meantFor, chan_event]
    split <;> rfl
  | lagged m => simp [step, meantFor]
  | gone s => cases s <;> cases p <;> simp [step, meantFor, chan, Party.sub]

theorem map_map_queue_dead (c : Option Chan) :
    (c.map fun c => { c with alive := false : Chan }).map (·.queue) = c.map (·.queue) := by
  cases c <;> rfl

/-- A party that has gone is handed nothing any more. -/
theorem dead_run (p : Party) (is : List Input) : ∀ n : Node, (chan n p).any (·.alive) = false →
    inbox (run n is) p = inbox n p := by
  induction is with
  | nil => intro n _; rfl
  | cons i is ih =>
    intro n h
    have hstep : inbox (step n i) p = inbox n p ∧ (chan (step n i) p).any (·.alive) = false := by
      rw [inbox_eq, inbox_eq, chan_step]
      cases hc : chan n p with
      | none =>
        refine ⟨?_, ?_⟩
        · split
          · rfl
          · split <;> rfl
        · split
          · rfl
          · split <;> rfl
      | some c =>
        rw [hc] at h
        have ha : c.alive = false := h
        refine ⟨?_, ?_⟩
        · split
          · rfl
          · split
            · simp only [Option.map_some, Chan.send, ha, Bool.false_eq_true, if_false]
            · rfl
        · split
          · rfl
          · split
            · simp only [Option.map_some, Option.any_some, Chan.send, ha, Bool.false_eq_true,
                if_false]
            · exact ha
    show inbox (run (step n i) is) p = _
    rw [ih _ hstep.2, hstep.1]

theorem live_run (p : Party) (is : List Input) : ∀ n : Node, (chan n p).any (·.alive) = true →
    inbox (run n is) p =
      (inbox n p).map (· ++ (whileThere p is).filterMap (meantFor n.net p)) := by
  induction is with
  | nil => intro n _; simp [run, whileThere]
  | cons i is ih =>
    intro n h
    show inbox (run (step n i) is) p = _
    cases hc : chan n p with
    | none => rw [hc] at h; cases h
    | some c =>
      rw [hc] at h
      have ha : c.alive = true := h
      have hst := chan_step n i p
      rw [hc] at hst
      by_cases hg : i = .gone p.sub
      · rw [if_pos hg] at hst
        rw [dead_run p is _ (by rw [hst]; rfl), inbox_eq, hst, inbox_eq, hc]
        simp [whileThere, hg]
      · rw [if_neg hg] at hst
        have hw : whileThere p (i :: is) = i :: whileThere p is := by
          simp [whileThere, hg]
        rw [hw]
        cases hm : meantFor n.net p i with
        | none =>
          rw [hm] at hst
          simp only at hst
          rw [ih _ (by rw [hst]; exact ha), step_net, inbox_eq, hst, inbox_eq, hc]
          simp [List.filterMap_cons, hm]
        | some m =>
          rw [hm] at hst
          simp only [Option.map_some] at hst
          rw [ih _ (by rw [hst]; simp [Chan.send, ha]), step_net, inbox_eq, hst, inbox_eq, hc]
          simp [List.filterMap_cons, hm, Chan.send, ha]

theorem run_net (is : List Input) : ∀ n : Node, (run n is).net = n.net := by
  induction is with
  | nil => intro n; rfl
  | cons i is ih => intro n; show (run (step n i) is).net = _; rw [ih, step_net]

/-- One more input, as a party sees it. -/
theorem inbox_snoc (n : Node) (pre : List Input) (i : Input) (p : Party) :
    inbox (run n (pre ++ [i])) p =
      match meantFor n.net p i with
      | some m => if listens (run n pre) p then (inbox (run n pre) p).map (· ++ [m])
                  else inbox (run n pre) p
      | none => inbox (run n pre) p := by
  have h1 : run n (pre ++ [i]) = step (run n pre) i := by simp [run]
  rw [h1, inbox_eq, chan_step, run_net, inbox_eq, listens_eq]
  by_cases hg : i = .gone p.sub
  · subst hg
    simp only [if_true, map_map_queue_dead, meantFor]
  · rw [if_neg hg]
    cases meantFor n.net p i with
    | none => rfl
    | some m =>
      cases chan (run n pre) p with
      | none => rfl
      | some c =>
        simp only [Option.map_some, Option.any_some, Chan.send]
        cases c.alive <;> rfl

/-! ## The cache of addresses -/

/-- No two entries for the same node. -/
def Cache.Distinct (c : Cache) : Prop := (c.entries.map (·.id)).Nodup

theorem map_take_nodup {α β : Type} (f : α → β) (l : List α) (k : Nat) (h : (l.map f).Nodup) :
    ((l.take k).map f).Nodup := by
  rw [List.map_take]
  exact List.Sublist.nodup (List.take_sublist _ _) h

theorem cons_filter_nodup (l : List NodeAddr) (a : NodeAddr) (h : (l.map (·.id)).Nodup) :
    ((a :: l.filter fun b => b.id ≠ a.id).map (·.id)).Nodup := by
  rw [List.map_cons, List.nodup_cons]
  refine ⟨?_, List.Sublist.nodup (List.Sublist.map _ (List.filter_sublist)) h⟩
  intro hm
  obtain ⟨b, hb, he⟩ := List.mem_map.1 hm
  have := (List.mem_filter.1 hb).2
  simp only [ne_eq, decide_not, Bool.not_eq_eq_eq_not, Bool.not_true, decide_eq_false_iff_not]
    at this
  exact this he

theorem put_distinct (c : Cache) (a : NodeAddr) (h : c.Distinct) : (c.put a).Distinct :=
  map_take_nodup _ _ _ (cons_filter_nodup c.entries a h)

theorem get_some {c : Cache} {id : Id} {a : NodeAddr}
    (h : c.entries.find? (fun b => b.id = id) = some a) : a ∈ c.entries ∧ a.id = id := by
  refine ⟨List.mem_of_find?_eq_some h, ?_⟩
  have := List.find?_some h
  simpa using this

theorem get_distinct (c : Cache) (id : Id) (h : c.Distinct) : (c.get id).2.Distinct := by
  unfold Cache.get
  cases hf : c.entries.find? (fun b => b.id = id) with
  | none => exact h
  | some a =>
    have := (get_some hf).2
    subst this
    exact cons_filter_nodup c.entries a h

theorem step_distinct (c : Cache) (op : CacheOp) (h : c.Distinct) : (c.step op).Distinct := by
  cases op with
  | put a => exact put_distinct c a h
  | get id => exact get_distinct c id h

theorem step_cap (c : Cache) (op : CacheOp) : (c.step op).cap = c.cap := by
  cases op with
  | put a => rfl
  | get id =>
    simp only [Cache.step, Cache.get]
    split <;> rfl

theorem run_cap (ops : List CacheOp) : ∀ c : Cache, (c.run ops).cap = c.cap := by
  induction ops with
  | nil => intro c; rfl
  | cons op ops ih => intro c; show ((c.step op).run ops).cap = _; rw [ih, step_cap]

theorem run_distinct (ops : List CacheOp) : ∀ c : Cache, c.Distinct → (c.run ops).Distinct := by
  induction ops with
  | nil => intro c h; exact h
  | cons op ops ih => intro c h; exact ih _ (step_distinct c op h)

theorem length_filter_ne_le (l : List NodeAddr) (a : NodeAddr) (h : a ∈ l) :
    (l.filter fun b => b.id ≠ a.id).length + 1 ≤ l.length := by
  induction l with
  | nil => cases h
  | cons b l ih =>
    simp only [List.filter_cons]
    by_cases he : b.id = a.id
    · simp only [ne_eq, he, not_true_eq_false, decide_false, Bool.false_eq_true, if_false,
        List.length_cons]
      have := List.length_filter_le (fun b => decide (¬ b.id = a.id)) l
      omega
    · simp only [ne_eq, he, not_false_eq_true, decide_true, if_true, List.length_cons]
      have : a ∈ l := by
        cases h with
        | head => exact absurd rfl he
        | tail _ h => exact h
      have := ih this
      simp only [ne_eq] at this
      omega

theorem step_size (c : Cache) (op : CacheOp) (h : c.entries.length ≤ c.cap) :
    (c.step op).entries.length ≤ c.cap := by
  cases op with
  | put a =>
    simp only [Cache.step, Cache.put, List.length_take]
    omega
  | get id =>
    simp only [Cache.step, Cache.get]
    cases hf : c.entries.find? (fun b => b.id = id) with
    | none => exact h
    | some a =>
      have ⟨hm, hi⟩ := get_some hf
      subst hi
      have := length_filter_ne_le c.entries a hm
      simp only [List.length_cons]
      simp only [ne_eq] at this ⊢
      omega

theorem run_size (ops : List CacheOp) : ∀ c : Cache, c.entries.length ≤ c.cap →
    (c.run ops).entries.length ≤ c.cap := by
  induction ops with
  | nil => intro c h; exact h
  | cons op ops ih =>
    intro c h
    have h1 := step_size c op h
    rw [← step_cap c op] at h1
    have h2 := ih _ h1
    rw [step_cap] at h2
    exact h2

/-- An entry after a step was there before, or has just been put. -/
theorem step_mem {c : Cache} {op : CacheOp} {a : NodeAddr} (h : a ∈ (c.step op).entries) :
    (op = .put a) ∨ (a ∈ c.entries ∧ ∀ b, op = .put b → b.id ≠ a.id) := by
  cases op with
  | put b =>
    have := List.mem_of_mem_take h
    cases this with
    | head => exact Or.inl rfl
    | tail _ hm =>
      have hf := List.mem_filter.1 hm
      refine Or.inr ⟨hf.1, ?_⟩
      intro b' hb'
      cases hb'
      have := hf.2
      simp only [ne_eq, decide_not, Bool.not_eq_eq_eq_not, Bool.not_true, decide_eq_false_iff_not]
        at this
      exact fun hc => this hc.symm
  | get id =>
    refine Or.inr ⟨?_, fun b hb => nomatch hb⟩
    simp only [Cache.step, Cache.get] at h
    cases hf : c.entries.find? (fun b => b.id = id) with
    | none => rw [hf] at h; exact h
    | some x =>
      rw [hf] at h
      cases h with
      | head => exact (get_some hf).1
      | tail _ hm => exact (List.mem_filter.1 hm).1

/-- The entry of `id` is there and only nodes of `T` are in front of it. -/
def Ahead (c : Cache) (id : Id) (T : List Id) : Prop :=
  ∃ l1 a l2, c.entries = l1 ++ a :: l2 ∧ a.id = id ∧ ∀ x ∈ l1, x.id ∈ T ∧ x.id ≠ id

theorem filter_ne_mid {l1 l2 : List NodeAddr} {a : NodeAddr} {i : Id} (h : a.id ≠ i) :
    (l1 ++ a :: l2).filter (fun b => b.id ≠ i) =
      l1.filter (fun b => b.id ≠ i) ++ a :: l2.filter (fun b => b.id ≠ i) := by
  rw [List.filter_append, List.filter_cons]
  simp [h]

theorem ahead_front (c : Cache) (l : List NodeAddr) (a : NodeAddr) (T : List Id)
    (h : c.entries = a :: l) : Ahead c a.id T :=
  ⟨[], a, l, h, rfl, fun x hx => nomatch hx⟩

theorem ahead_move {l1 l2 : List NodeAddr} {a x : NodeAddr} {T : List Id}
    (h1 : ∀ y ∈ l1, y.id ∈ T ∧ y.id ≠ a.id) (hx : x.id ∈ T) (hne : x.id ≠ a.id) :
    x :: (l1 ++ a :: l2).filter (fun b => b.id ≠ x.id) =
      (x :: l1.filter (fun b => b.id ≠ x.id)) ++ a :: l2.filter (fun b => b.id ≠ x.id) ∧
    ∀ y ∈ x :: l1.filter (fun b => b.id ≠ x.id), y.id ∈ T ∧ y.id ≠ a.id := by
  refine ⟨?_, ?_⟩
  · rw [filter_ne_mid (fun h => hne h.symm)]; rfl
  · intro y hy
    cases hy with
    | head => exact ⟨hx, hne⟩
    | tail _ hy => exact h1 y (List.mem_filter.1 hy).1

theorem ahead_step {c : Cache} {id : Id} {T : List Id} (hd : c.Distinct) (hT : T.length < c.cap)
    (h : Ahead c id T) (op : CacheOp) (hop : op.id = id ∨ op.id ∈ T) : Ahead (c.step op) id T := by
  by_cases he : op.id = id
  · cases op with
    | put a =>
      have he : a.id = id := he
      subst he
      have hpos : 0 < c.cap := by omega
      refine ahead_front _ (((c.entries.filter fun b => b.id ≠ a.id)).take (c.cap - 1)) a T ?_
      simp only [Cache.step, Cache.put]
      rw [List.take_cons hpos]
    | get i =>
      have he : i = id := he
      subst he
      obtain ⟨l1, a, l2, hc, ha, _⟩ := h
      have hm : a ∈ c.entries := by rw [hc]; simp
      simp only [Cache.step, Cache.get]
      cases hf : c.entries.find? (fun b => b.id = i) with
      | none =>
        have := List.find?_eq_none.1 hf a hm
        simp [ha] at this
      | some x =>
        have hx := (get_some hf).2
        have := ahead_front { c with entries := x :: c.entries.filter fun b => b.id ≠ i } _ x T rfl
        rw [hx] at this
        exact this
  · have hT' : op.id ∈ T := by
      cases hop with
      | inl h => exact absurd h he
      | inr h => exact h
    obtain ⟨l1, a, l2, hc, ha, h1⟩ := h
    subst ha
    cases op with
    | put x =>
      have hne : x.id ≠ a.id := he
      have hxT : x.id ∈ T := hT'
      obtain ⟨e1, e2⟩ := ahead_move (l2 := l2) h1 hxT hne
      have hlen : (x :: l1.filter (fun b => b.id ≠ x.id)).length ≤ T.length := by
        have hn : ((x :: l1.filter (fun b => b.id ≠ x.id)).map (·.id)).Nodup := by
          refine cons_filter_nodup l1 x ?_
          have : (c.entries.map (·.id)).Nodup := hd
          rw [hc, List.map_append] at this
          exact (List.nodup_append.1 this).1
        have := Verif.Query.nodup_subset_length hn (b := T) (fun i hi => by
          obtain ⟨y, hy, rfl⟩ := List.mem_map.1 hi
          exact (e2 y hy).1)
        rwa [List.length_map] at this
      refine ⟨x :: l1.filter (fun b => b.id ≠ x.id), a,
        (l2.filter (fun b => b.id ≠ x.id)).take
          (c.cap - (x :: l1.filter (fun b => b.id ≠ x.id)).length - 1), ?_, rfl, e2⟩
      simp only [Cache.step, Cache.put]
      rw [hc, e1, List.take_append, List.take_of_length_le (by omega), List.take_cons (by omega)]
    | get i =>
      have hne : i ≠ a.id := he
      have hiT : i ∈ T := hT'
      simp only [Cache.step, Cache.get]
      cases hf : c.entries.find? (fun b => b.id = i) with
      | none => exact ⟨l1, a, l2, hc, rfl, h1⟩
      | some x =>
        have hx := (get_some hf).2
        subst hx
        obtain ⟨e1, e2⟩ := ahead_move (l2 := l2) h1 hiT hne
        refine ⟨_, a, l2.filter (fun b => b.id ≠ x.id), ?_, rfl, e2⟩
        simp only
        rw [hc, e1]

theorem ahead_run (ops : List CacheOp) {id : Id} {T : List Id} : ∀ c : Cache, c.Distinct →
    T.length < c.cap → Ahead c id T → (∀ op ∈ ops, op.id = id ∨ op.id ∈ T) →
    Ahead (c.run ops) id T := by
  induction ops with
  | nil => intro c _ _ h _; exact h
  | cons op ops ih =>
    intro c hd hT h hops
    exact ih _ (step_distinct c op hd) (by rw [step_cap]; exact hT)
      (ahead_step hd hT h op (hops op (by simp))) (fun o ho => hops o (by simp [ho]))

end Verif.Events
