import Verif.Props.HistoryNodeSpec
import Verif.Props.HistoryValidator
import Verif.Props.Store
import Verif.Props.ContentKey

/-! # Lemmas for C91 -/

namespace Verif.Props.HistoryNodes
open Verif.ContentKey Verif.HistoryValue Verif.HistoryNode
open Verif.HistoryValidator hiding run
open Verif.HeaderValidator (HeaderProof Summary)

variable {Hd Tx Rc Wd : Type} {n : Node Hd Tx Rc Wd}

/-! ## Runs -/

theorem run_snoc (s s' : HistoryNode.State) (es : List Ev) (e : Ev) :
    run n s (es ++ [e]) = .ok s' ↔ ∃ s1, run n s es = .ok s1 ∧ step n s1 e = .ok s' := by
  induction es generalizing s with
  | nil =>
    simp only [List.nil_append, run]
    cases h : step n s e <;> simp [h]
  | cons a es ih =>
    simp only [List.cons_append, run]
    cases h : step n s a with
    | error => simp
    | ok s1 => exact ih s1

theorem run_append (s s1 s' : HistoryNode.State) (es es' : List Ev) (h1 : run n s es = .ok s1)
    (h2 : run n s1 es' = .ok s') : run n s (es ++ es') = .ok s' := by
  induction es generalizing s with
  | nil => cases h1; exact h2
  | cons a es ih =>
    simp only [List.cons_append, run] at h1 ⊢
    cases h : step n s a with
    | error => rw [h] at h1; cases h1
    | ok s2 => rw [h] at h1; exact ih s2 h1

/-! ## More events -/

theorem received_append (es es' : List Ev) : received (es ++ es') = received es ++ received es' := List.filterMap_append ..
theorem operated_append (es es' : List Ev) : operated (es ++ es') = operated es ++ operated es' := List.filterMap_append ..
theorem asked_append (es es' : List Ev) : asked (es ++ es') = asked es ++ asked es' := List.filterMap_append ..
theorem sources_append (es es' : List Ev) : sources (es ++ es') = sources es ++ sources es' := List.filterMap_append ..

theorem mem_keys {es : List Ev} {k : Legacy} : k ∈ keys es ↔
    (∃ v, (k, v) ∈ received es) ∨ (∃ v, (k, v) ∈ operated es) ∨ ∃ h ∈ asked es, k = .headerByHash h := by
  simp only [keys, List.mem_append, List.mem_map, Prod.exists, exists_and_right, exists_eq_right]
  constructor
  · rintro ((h | h) | ⟨h, h1, h2⟩)
    · exact .inl h
    · exact .inr (.inl h)
    · exact .inr (.inr ⟨h, h1, h2.symm⟩)
  · rintro (h | h | ⟨h, h1, h2⟩)
    · exact .inl (.inl h)
    · exact .inl (.inr h)
    · exact .inr ⟨h, h1, h2.symm⟩

theorem keys_append {es es' : List Ev} {k : Legacy} (h : k ∈ keys es) : k ∈ keys (es ++ es') := by
  rw [mem_keys] at h ⊢
  rw [received_append, operated_append, asked_append]
  rcases h with ⟨v, h⟩ | ⟨v, h⟩ | ⟨x, h, h'⟩
  · exact .inl ⟨v, List.mem_append_left _ h⟩
  · exact .inr (.inl ⟨v, List.mem_append_left _ h⟩)
  · exact .inr (.inr ⟨x, List.mem_append_left _ h, h'⟩)

theorem NoIdCollision.mono {ks ks' : List Legacy} (h : NoIdCollision n ks') (hs : ∀ k ∈ ks, k ∈ ks') : NoIdCollision n ks :=
  fun a ha b hb => h a (hs a ha) b (hs b hb)

theorem HonestOperator.left {es es' : List Ev} (h : HonestOperator n (es ++ es')) : HonestOperator n es :=
  fun k bs hm => h k bs (by rw [operated_append]; exact List.mem_append_left _ hm)

theorem Proven.mono {es : List Ev} {h : Hd} {p : HeaderProof} (hp : Proven n es h p) (es' : List Ev) :
    Proven n (es ++ es') h p := by
  obtain ⟨cache, source, h1, h2, h3⟩ := hp
  refine ⟨cache, source, ?_, ?_, h3⟩
  · rw [sources_append]; exact List.mem_append_left _ h1
  · rcases h2 with h2 | ⟨f, hf, e, he⟩
    · exact .inl h2
    · exact .inr ⟨f, by rw [sources_append]; exact List.mem_append_left _ hf, e, he⟩

theorem HeaderOf.mono {es : List Ev} {k : Id} {h : Hd} (hp : HeaderOf n es k h) (es' : List Ev) :
    HeaderOf n (es ++ es') k h := by
  obtain ⟨h1, bs, p, h2, h3⟩ := hp
  refine ⟨h1, bs, p, ?_, h3⟩
  rw [received_append, operated_append]
  exact h2.imp (List.mem_append_left _) (List.mem_append_left _)

theorem Genuine.mono {es : List Ev} {key : Legacy} {bs : Bytes} (hp : Genuine n es key bs) (es' : List Ev) :
    Genuine n (es ++ es') key bs := by
  cases key with
  | headerByHash k => obtain ⟨h, p, h1, h2, h3⟩ := hp; exact ⟨h, p, h1, h2, h3.mono es'⟩
  | headerByNumber k => obtain ⟨h, p, h1, h2, h3⟩ := hp; exact ⟨h, p, h1, h2, h3.mono es'⟩
  | blockBody k => obtain ⟨b, h, h1, h2, h3⟩ := hp; exact ⟨b, h, h1, h2.mono es', h3⟩
  | blockReceipts k => obtain ⟨b, h, h1, h2, h3⟩ := hp; exact ⟨b, h, h1, h2.mono es', h3⟩
  | ephemeralFind _ _ => exact hp
  | ephemeralOffer _ => exact hp

/-! ## The invariant -/

/-- From a peer and as its key says, or from the operator. -/
def Good (n : Node Hd Tx Rc Wd) (es : List Ev) (key : Legacy) (v : Bytes) : Prop :=
  ((key, v) ∈ received es ∧ Genuine n es key v) ∨ (key, v) ∈ operated es

theorem Good.mono {es : List Ev} {key : Legacy} {bs : Bytes} (hp : Good n es key bs) (es' : List Ev) :
    Good n (es ++ es') key bs := by
  unfold Good
  rw [received_append, operated_append]
  exact hp.imp (fun h => ⟨List.mem_append_left _ h.1, h.2.mono es'⟩) (List.mem_append_left _)

theorem Good.key {es : List Ev} {key : Legacy} {bs : Bytes} (hp : Good n es key bs) : key ∈ keys es := by
  rw [mem_keys]
  rcases hp with ⟨h, _⟩ | h
  · exact .inl ⟨_, h⟩
  · exact .inr (.inl ⟨_, h⟩)

def RowsGood (n : Node Hd Tx Rc Wd) (es : List Ev) (rows : List Store.Row) : Prop :=
  ∀ id k v, Store.lookup rows id = some (k, v) → ∃ key : Legacy, k = key.toBytes ∧ n.db.idOf k = id ∧ Good n es key v

structure Inv (n : Node Hd Tx Rc Wd) (es : List Ev) (s : HistoryNode.State) : Prop where
  db : Store.Inv n.db s.store
  rows : RowsGood n es s.store.2.rows
  held : ∀ x ∈ s.held, x ∈ received es ∧ Genuine n es x.1 x.2
  answered : ∀ x ∈ s.answered,
    ((.headerByHash x.1, x.2) ∈ received es ∨ (.headerByHash x.1, x.2) ∈ operated es) ∧
      ∀ h p, Value.decode n.lib n.net (.headerByHash x.1) x.2 = some (.header h p) → n.lib.keccak (n.lib.header.enc h) = x.1
  cache : s.cache = [] ∨ ∃ f ∈ sources es, ∃ e, f e = some s.cache

theorem RowsGood.mono {es : List Ev} {rows : List Store.Row} (h : RowsGood n es rows) (es' : List Ev) :
    RowsGood n (es ++ es') rows := by
  intro id k v hl
  obtain ⟨key, h1, h2, h3⟩ := h id k v hl
  exact ⟨key, h1, h2, h3.mono es'⟩

theorem Inv.mono {es : List Ev} {s : HistoryNode.State} (h : Inv n es s) (es' : List Ev) : Inv n (es ++ es') s := by
  refine ⟨h.db, h.rows.mono es', ?_, ?_, ?_⟩
  · intro x hx
    obtain ⟨h1, h2⟩ := h.held x hx
    exact ⟨by rw [received_append]; exact List.mem_append_left _ h1, h2.mono es'⟩
  · intro x hx
    obtain ⟨h1, h2⟩ := h.answered x hx
    refine ⟨?_, h2⟩
    rw [received_append, operated_append]
    exact h1.imp (List.mem_append_left _) (List.mem_append_left _)
  · rcases h.cache with h1 | ⟨f, hf, e, he⟩
    · exact .inl h1
    · exact .inr ⟨f, by rw [sources_append]; exact List.mem_append_left _ hf, e, he⟩

/-- What a store operation does to good rows. -/
theorem RowsGood.step (hq : Store.Sql n.db) {es : List Ev} {st st' : Store.Config × Store.Store} {op : Store.Op}
    (hdb : Store.Inv n.db st) (hr : RowsGood n es st.2.rows) (h : Store.step n.db st op = .ok st')
    (hw : ∀ k v, Writes op k v → ∃ key : Legacy, k = key.toBytes ∧ Good n es key v) : RowsGood n es st'.2.rows := by
  intro id k v hl
  rcases lookup_step n.db hq st st' op hdb h id with h1 | h1 | ⟨_, k', v', h2, h3, h4⟩
  · rw [h1] at hl; exact hr id k v hl
  · rw [h1] at hl; cases hl
  · rw [h4] at hl
    obtain ⟨rfl, rfl⟩ := Prod.mk.inj (Option.some.inj hl)
    obtain ⟨key, h5, h6⟩ := hw _ _ h2
    exact ⟨key, h5, h3, h6⟩

theorem writes_insert {sps : List Store.Speed} {key value k v : Bytes} (h : Writes (.insert sps key value) k v) :
    k = key ∧ v = value := by
  rcases h with ⟨_, h⟩ | ⟨_, _, _, _, _, h⟩
  · cases h; exact ⟨rfl, rfl⟩
  · cases h

theorem writes_kill {sps : List Store.Speed} {key value k v : Bytes} {turns tries cfg sps'}
    (h : Writes (.kill sps key value turns tries cfg sps') k v) : k = key ∧ v = value := by
  rcases h with ⟨_, h⟩ | ⟨_, _, _, _, _, h⟩
  · cases h
  · cases h; exact ⟨rfl, rfl⟩

theorem writes_restart {tries cfg sps} {k v : Bytes} (h : Writes (.restart tries cfg sps) k v) : False := by
  rcases h with ⟨_, h⟩ | ⟨_, _, _, _, _, h⟩ <;> cases h

/-- A stored value is good for the key asked for, unless ids collide. -/
theorem Inv.get {es : List Ev} {s : HistoryNode.State} (hi : Inv n es s) {key : Legacy} {v : Bytes}
    (hc : NoIdCollision n (key :: keys es)) (h : HistoryNode.get n s.store key = some v) : Good n es key v := by
  unfold HistoryNode.get Store.lookupValue at h
  obtain ⟨⟨k, v'⟩, h1, h2⟩ := Option.map_eq_some_iff.mp h
  subst h2
  obtain ⟨key', rfl, h3, h4⟩ := hi.rows _ k v' h1
  have := hc key' (List.mem_cons_of_mem _ h4.key) key (List.mem_cons_self ..) h3
  subst this
  exact h4

/-- What is accepted is genuine, if the headers answered so far are the right ones. -/
theorem accepted_genuine {es : List Ev} {s : HistoryNode.State} (hi : Inv n es s) {key : Legacy} {bs : Bytes} {m : Moment}
    (h : Accepts (env n s m) s.cache key bs) : Genuine n (es ++ [.arrived key bs m]) key bs := by
  have hsrc : m.source ∈ sources (es ++ [.arrived key bs m]) := by
    rw [sources_append]; exact List.mem_append_right _ (List.mem_singleton.mpr rfl)
  have hcache := (hi.mono [.arrived key bs m]).cache
  have hhead : ∀ k hb hd p, (env n s m).headerContent k = some hb →
      Value.decode n.lib n.net (.headerByHash k) hb = some (.header hd p) → HeaderOf n (es ++ [.arrived key bs m]) k hd := by
    intro k hb hd p h1 h2
    have h3 : (k, hb) ∈ s.answered := by
      have := Option.filter_eq_some_iff.mp h1
      simpa using this.2
    obtain ⟨h4, h5⟩ := (hi.mono [.arrived key bs m]).answered _ h3
    exact ⟨h5 hd p h2, hb, p, h4, h2⟩
  cases key with
  | headerByHash k =>
    obtain ⟨hd, p, h1, h2, h3⟩ := (C58_by_hash (env n s m) s.cache k bs).mp h
    exact ⟨hd, p, h1, h2, s.cache, m.source, hsrc, hcache, h3⟩
  | headerByNumber k =>
    obtain ⟨hd, p, h1, h2, h3⟩ := (C58_by_number (env n s m) s.cache k bs).mp h
    exact ⟨hd, p, h1, h2, s.cache, m.source, hsrc, hcache, h3⟩
  | blockBody k =>
    obtain ⟨b, hb, hd, p, h1, h2, h3, h4, h5, h6⟩ := (C58_body (env n s m) s.cache k bs).mp h
    exact ⟨b, hd, h1, hhead k hb hd p h2 h3, h4, h5, h6⟩
  | blockReceipts k =>
    obtain ⟨b, hb, hd, p, h1, h2, h3, h4⟩ := (C58_receipts (env n s m) s.cache k bs).mp h
    exact ⟨b, hd, h1, hhead k hb hd p h2 h3, h4⟩
  | ephemeralFind _ _ => cases h
  | ephemeralOffer _ => cases h

theorem map_ok {α β : Type} {x : Except Store.Err α} {f : α → β} {y : β} (h : x.map f = .ok y) : ∃ a, x = .ok a ∧ f a = y := by
  cases x with
  | error e => cases h
  | ok a => exact ⟨a, rfl, by injection h⟩

theorem Inv.fresh {es : List Ev} {st : Store.Config × Store.Store} (h1 : Store.Inv n.db st) (h2 : RowsGood n es st.2.rows) :
    Inv n es (HistoryNode.fresh st) :=
  ⟨h1, h2, fun _ h => (nomatch h), fun _ h => (nomatch h), .inl rfl⟩

theorem Inv.step (hq : Store.Sql n.db) {es : List Ev} {e : Ev} {s s' : HistoryNode.State} (hi : Inv n es s)
    (ho : HonestOperator n (es ++ [e])) (hc : NoIdCollision n (keys (es ++ [e]))) (h : HistoryNode.step n s e = .ok s') :
    Inv n (es ++ [e]) s' := by
  have hm := hi.mono [e]
  cases e with
  | arrived key content m =>
    simp only [HistoryNode.step] at h
    cases h
    refine ⟨hm.db, hm.rows, ?_, hm.answered, ?_⟩
    · intro x hx
      simp only at hx
      split at hx
      · next ha =>
        rcases List.mem_append.mp hx with hx | hx
        · exact hm.held x hx
        · rw [List.mem_singleton] at hx
          subst hx
          refine ⟨?_, accepted_genuine hi ha⟩
          rw [received_append]
          exact List.mem_append_right _ (List.mem_singleton.mpr rfl)
      · exact hm.held x hx
    · simp only
      rcases content_cache (env n s m) s.cache key content with h1 | ⟨ep, h1⟩
      · rw [h1]; exact hm.cache
      · refine .inr ⟨m.source, ?_, ep, h1⟩
        rw [sources_append]
        exact List.mem_append_right _ (List.mem_singleton.mpr rfl)
  | keep i sps =>
    simp only [HistoryNode.step] at h
    split at h
    · cases h; exact hm
    · next key content hh =>
      obtain ⟨st, h1, rfl⟩ := map_ok h
      have hg := hm.held _ (List.mem_of_getElem? hh)
      refine ⟨Store.step_inv n.db hq _ _ _ hm.db h1, ?_, hm.held, hm.answered, hm.cache⟩
      refine hm.rows.step hq hm.db h1 ?_
      intro k v hw
      obtain ⟨rfl, rfl⟩ := writes_insert hw
      exact ⟨key, rfl, .inl hg⟩
  | keepKilled i sps turns tries cfg sps' =>
    simp only [HistoryNode.step] at h
    split at h
    · cases h; exact hm
    · next key content hh =>
      obtain ⟨st, h1, rfl⟩ := map_ok h
      have hg := hm.held _ (List.mem_of_getElem? hh)
      refine .fresh (Store.step_inv n.db hq _ _ _ hm.db h1) ?_
      refine hm.rows.step hq hm.db h1 ?_
      intro k v hw
      obtain ⟨rfl, rfl⟩ := writes_kill hw
      exact ⟨key, rfl, .inl hg⟩
  | headerStored k =>
    simp only [HistoryNode.step] at h
    split at h
    · cases h; exact hm
    · next content hg =>
      cases h
      refine ⟨hm.db, hm.rows, hm.held, ?_, hm.cache⟩
      intro x hx
      rcases List.mem_append.mp hx with hx | hx
      · exact hm.answered x hx
      · rw [List.mem_singleton] at hx
        subst hx
        have hk : Legacy.headerByHash k ∈ keys (es ++ [.headerStored k]) := by
          rw [mem_keys, asked_append]
          exact .inr (.inr ⟨k, List.mem_append_right _ (List.mem_singleton.mpr rfl), rfl⟩)
        have hgood := hm.get (key := .headerByHash k) (v := content)
          (hc.mono fun a ha => by
            rcases List.mem_cons.mp ha with rfl | ha
            · exact hk
            · exact ha) hg
        rcases hgood with ⟨h1, hd, p, h2, h3, _⟩ | h1
        · refine ⟨.inl h1, ?_⟩
          intro hd' p' h4
          rw [h2] at h4
          cases h4
          exact h3
        · exact ⟨.inr h1, ho k content h1⟩
  | headerFound i =>
    simp only [HistoryNode.step] at h
    split at h
    · next k content hh =>
      cases h
      refine ⟨hm.db, hm.rows, hm.held, ?_, hm.cache⟩
      intro x hx
      rcases List.mem_append.mp hx with hx | hx
      · exact hm.answered x hx
      · rw [List.mem_singleton] at hx
        subst hx
        obtain ⟨h1, hd, p, h2, h3, _⟩ := hm.held _ (List.mem_of_getElem? hh)
        refine ⟨.inl h1, ?_⟩
        intro hd' p' h4
        rw [h2] at h4
        cases h4
        exact h3
    · cases h; exact hm
  | operator key content sps =>
    simp only [HistoryNode.step] at h
    obtain ⟨st, h1, rfl⟩ := map_ok h
    refine ⟨Store.step_inv n.db hq _ _ _ hm.db h1, ?_, hm.held, hm.answered, hm.cache⟩
    refine hm.rows.step hq hm.db h1 ?_
    intro k v hw
    obtain ⟨rfl, rfl⟩ := writes_insert hw
    refine ⟨key, rfl, .inr ?_⟩
    rw [operated_append]
    exact List.mem_append_right _ (List.mem_singleton.mpr rfl)
  | operatorKilled key content sps turns tries cfg sps' =>
    simp only [HistoryNode.step] at h
    obtain ⟨st, h1, rfl⟩ := map_ok h
    refine .fresh (Store.step_inv n.db hq _ _ _ hm.db h1) ?_
    refine hm.rows.step hq hm.db h1 ?_
    intro k v hw
    obtain ⟨rfl, rfl⟩ := writes_kill hw
    refine ⟨key, rfl, .inr ?_⟩
    rw [operated_append]
    exact List.mem_append_right _ (List.mem_singleton.mpr rfl)
  | restart tries cfg sps =>
    simp only [HistoryNode.step] at h
    obtain ⟨st, h1, rfl⟩ := map_ok h
    refine .fresh (Store.step_inv n.db hq _ _ _ hm.db h1) ?_
    exact hm.rows.step hq hm.db h1 fun k v hw => (writes_restart hw).elim

theorem create_empty {cfg : Store.Config} {sps : List Store.Speed} {store : Store.Store} (hq : Store.Sql n.db)
    (h : Store.create n.db cfg sps [] = .ok store) (id : Id) : Store.lookup store.rows id = none := by
  cases hl : Store.lookup store.rows id with
  | none => rfl
  | some kv =>
    obtain ⟨k, v⟩ := kv
    obtain ⟨pre, _, _, _, h1, _⟩ := C20_history n.db hq cfg sps store [] (cfg, store) h rfl id k v (stored_iff.mpr hl)
    simp at h1

theorem Inv.run (hq : Store.Sql n.db) : ∀ (es pre : List Ev) {s s' : HistoryNode.State}, Inv n pre s →
    HonestOperator n (pre ++ es) → NoIdCollision n (keys (pre ++ es)) → HistoryNode.run n s es = .ok s' → Inv n (pre ++ es) s'
  | [], pre, s, s', hi, _, _, h => by
    cases h
    rwa [List.append_nil]
  | e :: es, pre, s, s', hi, ho, hc, h => by
    simp only [HistoryNode.run] at h
    split at h
    · next s1 h1 =>
      have he : pre ++ e :: es = (pre ++ [e]) ++ es := by simp
      rw [he] at ho hc ⊢
      exact Inv.run hq es (pre ++ [e]) (hi.step hq ho.left (hc.mono fun a ha => keys_append ha) h1) ho hc h
    · cases h

theorem Lives.inv (hq : Store.Sql n.db) {es : List Ev} {s : HistoryNode.State} (h : Lives n es s) (ho : HonestOperator n es)
    (hc : NoIdCollision n (keys es)) : Inv n es s := by
  obtain ⟨cfg, sps, store, h0, h1⟩ := h
  refine Inv.run hq es [] (.fresh (Store.create_inv n.db cfg hq sps [] cfg.node (Store.RowsOk.nil _ _) store h0) ?_) ho hc h1
  intro id k v hl
  rw [create_empty hq h0] at hl
  cases hl

end Verif.Props.HistoryNodes
