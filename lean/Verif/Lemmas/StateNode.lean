import Verif.Props.StateNodeSpec

/-! # Lemmas about a state node -/

namespace Verif.StateStore
open Verif.Store

theorem run_snoc (env : Store.Env) (K : Bytes → Id) : ∀ (ops : List Op) (op : Op) (st st' : Config × Store),
    run env K st (ops ++ [op]) = .ok st' ↔ ∃ st1, run env K st ops = .ok st1 ∧ step env K st1 op = .ok st'
  | [], op, st, st' => by
    simp only [List.nil_append, run]
    cases h : step env K st op <;> simp [h]
  | o :: ops, op, st, st' => by
    simp only [List.cons_append, run]
    cases step env K st o with
    | error e => simp
    | ok st1 => simp only; exact run_snoc env K ops op st1 st'

end Verif.StateStore

namespace Verif.StateNode
open Verif.StateContent Verif.Props Verif.Props.StateNodes

theorem run_append (n : Node) : ∀ (a b : List Ev) (s s' : State),
    run n s (a ++ b) = .ok s' ↔ ∃ s1, run n s a = .ok s1 ∧ run n s1 b = .ok s'
  | [], b, s, s' => by simp [run]
  | e :: a, b, s, s' => by
    simp only [List.cons_append, run]
    cases step n s e with
    | error e => simp
    | ok s1 => simp only; exact run_append n a b s1 s'

theorem run_snoc (n : Node) (es : List Ev) (e : Ev) (s s' : State) :
    run n s (es ++ [e]) = .ok s' ↔ ∃ s1, run n s es = .ok s1 ∧ step n s1 e = .ok s' := by
  rw [run_append]
  constructor <;> rintro ⟨s1, h1, h2⟩ <;> refine ⟨s1, h1, ?_⟩
  · simp only [run] at h2
    cases h : step n s1 e with
    | error e => rw [h] at h2; cases h2
    | ok s2 => rw [h] at h2; exact h2
  · simp only [run, h2]

theorem received_append (a b : List Ev) : received (a ++ b) = received a ++ received b := List.filterMap_append
theorem operated_append (a b : List Ev) : operated (a ++ b) = operated a ++ operated b := List.filterMap_append
theorem wanted_append (a b : List Ev) : wanted (a ++ b) = wanted a ++ wanted b := List.filterMap_append

theorem keys_append {a b : List Ev} {k : ContentKey.State} (h : k ∈ keys a) : k ∈ keys (a ++ b) := by
  simp only [keys, received_append, operated_append, wanted_append, List.map_append, List.mem_append] at h ⊢
  rcases h with (h | h) | h
  · exact .inl (.inl (.inl h))
  · exact .inl (.inr (.inl h))
  · exact .inr (.inl h)

theorem _root_.Verif.Props.StateNodes.KeysFine.mono {n : Node} {a b : List ContentKey.State} (h : KeysFine n b) (hs : ∀ k ∈ a, k ∈ b) : KeysFine n a :=
  ⟨fun k hk => h.valid k (hs k hk), fun k hk l hl => h.ids k (hs k hk) l (hs l hl)⟩

/-- Where content that is put into the store comes from. -/
def From (n : Node) (es : List Ev) (key : ContentKey.State) (bs : Bytes) : Prop :=
  ((key, bs) ∈ received es ∧ validateContent n.trie key bs = some .canonicallyValid) ∨ (key, bs) ∈ operated es

theorem From.mono {n : Node} {es : List Ev} {key : ContentKey.State} {bs : Bytes} (h : From n es key bs) (es' : List Ev) :
    From n (es ++ es') key bs := by
  rcases h with ⟨h1, h2⟩ | h
  · exact .inl ⟨by rw [received_append]; exact List.mem_append_left _ h1, h2⟩
  · exact .inr (by rw [operated_append]; exact List.mem_append_left _ h)

structure Inv (n : Node) (st0 : Store.Config × Store.Store) (es : List Ev) (s : State) : Prop where
  held : ∀ x ∈ s.held, x ∈ received es ∧ validateContent n.trie x.1 x.2 = some .canonicallyValid
  store : ∃ ops, StateStore.run n.db n.trie.K st0 ops = .ok s.store ∧
    ∀ op ∈ ops, ∀ key bs, Puts op key bs → From n es key bs
  found : ∀ x ∈ s.found,
    (x ∈ received es ∧ ∃ r, validateContent n.trie x.1 x.2 = some r ∧ r ≠ .invalid) ∨
      ∃ pre post s', es = pre ++ post ∧ run n (fresh st0) pre = .ok s' ∧ get n s' x.1 = some x.2

theorem Inv.init (n : Node) (st0 : Store.Config × Store.Store) : Inv n st0 [] (fresh st0) :=
  ⟨by simp [fresh], ⟨[], rfl, by simp⟩, by simp [fresh]⟩

theorem Inv.mono {n : Node} {st0 : Store.Config × Store.Store} {es : List Ev} {s : State} (h : Inv n st0 es s)
    (es' : List Ev) : Inv n st0 (es ++ es') s := by
  refine ⟨fun x hx => ?_, ?_, fun x hx => ?_⟩
  · obtain ⟨h1, h2⟩ := h.held x hx
    exact ⟨by rw [received_append]; exact List.mem_append_left _ h1, h2⟩
  · obtain ⟨ops, h1, h2⟩ := h.store
    exact ⟨ops, h1, fun op ho key bs hp => (h2 op ho key bs hp).mono es'⟩
  · rcases h.found x hx with ⟨h1, h2⟩ | ⟨pre, post, s', h1, h2⟩
    · exact .inl ⟨by rw [received_append]; exact List.mem_append_left _ h1, h2⟩
    · exact .inr ⟨pre, post ++ es', s', by rw [h1, List.append_assoc], h2⟩

theorem puts_put {sps : List Store.Speed} {key key' : ContentKey.State} {bs bs' : Bytes}
    (h : Puts (.put sps key bs) key' bs') : key' = key ∧ bs' = bs := by
  rcases h with ⟨_, h⟩ | ⟨_, _, _, _, _, h⟩ <;> cases h
  exact ⟨rfl, rfl⟩

theorem puts_kill {sps sps' : List Store.Speed} {key key' : ContentKey.State} {bs bs' : Bytes} {turns : Option Nat}
    {tries : List (Store.Config × List Store.Speed)} {cfg : Store.Config}
    (h : Puts (.kill sps key bs turns tries cfg sps') key' bs') : key' = key ∧ bs' = bs := by
  rcases h with ⟨_, h⟩ | ⟨_, _, _, _, _, h⟩ <;> cases h
  exact ⟨rfl, rfl⟩

theorem puts_restart {sps : List Store.Speed} {key' : ContentKey.State} {bs' : Bytes}
    {tries : List (Store.Config × List Store.Speed)} {cfg : Store.Config}
    (h : Puts (.restart tries cfg sps) key' bs') : False := by
  rcases h with ⟨_, h⟩ | ⟨_, _, _, _, _, h⟩ <;> cases h

/-- The store after one more operation. -/
theorem Inv.store_step {n : Node} {st0 : Store.Config × Store.Store} {es : List Ev} {s : State} (h : Inv n st0 es s)
    {op : StateStore.Op} {st : Store.Config × Store.Store} (hs : StateStore.step n.db n.trie.K s.store op = .ok st)
    (ho : ∀ key bs, Puts op key bs → From n es key bs) :
    ∃ ops, StateStore.run n.db n.trie.K st0 ops = .ok st ∧ ∀ op ∈ ops, ∀ key bs, Puts op key bs → From n es key bs := by
  obtain ⟨ops, h1, h2⟩ := h.store
  refine ⟨ops ++ [op], (StateStore.run_snoc _ _ _ _ _ _).mpr ⟨_, h1, hs⟩, fun o hm => ?_⟩
  rcases List.mem_append.mp hm with hm | hm
  · exact h2 o hm
  · rw [List.mem_singleton] at hm; subst hm; exact ho

theorem map_ok {ε α β : Type} {f : α → β} {x : Except ε α} {b : β} (h : x.map f = .ok b) : ∃ a, x = .ok a ∧ b = f a := by
  cases x with
  | error e => cases h
  | ok a => cases h; exact ⟨a, rfl, rfl⟩

theorem Inv.step {n : Node} {st0 : Store.Config × Store.Store} {es : List Ev} {s s' : State} {e : Ev} (h : Inv n st0 es s)
    (hr : run n (fresh st0) es = .ok s) (hs : step n s e = .ok s') : Inv n st0 (es ++ [e]) s' := by
  have hm := h.mono [e]
  have stored : ∀ key v, get n s key = some v → ∃ pre post s', es ++ [e] = pre ++ post ∧ run n (fresh st0) pre = .ok s' ∧
      get n s' key = some v := fun key v hg => ⟨es, [e], s, rfl, hr, hg⟩
  have add : ∀ (l : List (ContentKey.State × Bytes)) (x y : ContentKey.State × Bytes), y ∈ l ++ [x] → y ∈ l ∨ y = x := by
    intro l x y hy
    simpa using hy
  have heldFrom : ∀ i key bs, s.held[i]? = some (key, bs) → From n (es ++ [e]) key bs := fun i key bs hi =>
    .inl (hm.held _ (List.mem_of_getElem? hi))
  cases e with
  | offered key content =>
    cases hs
    have hin : (key, content) ∈ received (es ++ [.offered key content]) := by
      rw [received_append]; exact List.mem_append_right _ (by simp [received])
    unfold onOffered
    split
    · next hv =>
      refine ⟨fun x hx => ?_, hm.store, hm.found⟩
      rcases add _ _ _ hx with hx | rfl
      · exact hm.held x hx
      · exact ⟨hin, hv⟩
    · exact hm
  | fetched key content =>
    cases hs
    have hin : (key, content) ∈ received (es ++ [.fetched key content]) := by
      rw [received_append]; exact List.mem_append_right _ (by simp [received])
    unfold onFetched
    split
    · next v hg =>
      refine ⟨hm.held, hm.store, fun x hx => ?_⟩
      rcases add _ _ _ hx with hx | rfl
      · exact hm.found x hx
      · exact .inr (stored _ _ hg)
    · split
      · next hv =>
        refine ⟨hm.held, hm.store, fun x hx => ?_⟩
        rcases add _ _ _ hx with hx | rfl
        · exact hm.found x hx
        · exact .inl ⟨hin, _, hv, by decide⟩
      · next hv =>
        refine ⟨fun x hx => ?_, hm.store, fun x hx => ?_⟩
        · rcases add _ _ _ hx with hx | rfl
          · exact hm.held x hx
          · exact ⟨hin, hv⟩
        · rcases add _ _ _ hx with hx | rfl
          · exact hm.found x hx
          · exact .inl ⟨hin, _, hv, by decide⟩
      · exact hm
  | asked key =>
    cases hs
    unfold onAsked
    split
    · next v hg =>
      refine ⟨hm.held, hm.store, fun x hx => ?_⟩
      rcases add _ _ _ hx with hx | rfl
      · exact hm.found x hx
      · exact .inr (stored _ _ hg)
    · exact hm
  | keep i sps =>
    simp only [StateNode.step] at hs
    split at hs
    · cases hs; exact hm
    · next key content hi =>
      obtain ⟨st, h1, rfl⟩ := map_ok hs
      exact ⟨hm.held, hm.store_step h1 (fun k b hp => by obtain ⟨rfl, rfl⟩ := puts_put hp; exact heldFrom _ _ _ hi), hm.found⟩
  | keepKilled i sps turns tries cfg sps' =>
    simp only [StateNode.step] at hs
    split at hs
    · cases hs; exact hm
    · next key content hi =>
      obtain ⟨st, h1, rfl⟩ := map_ok hs
      exact ⟨by simp [fresh],
        hm.store_step h1 (fun k b hp => by obtain ⟨rfl, rfl⟩ := puts_kill hp; exact heldFrom _ _ _ hi), by simp [fresh]⟩
  | operator key content sps =>
    obtain ⟨st, h1, rfl⟩ := map_ok hs
    refine ⟨hm.held, hm.store_step h1 (fun k b hp => ?_), hm.found⟩
    obtain ⟨rfl, rfl⟩ := puts_put hp
    exact .inr (by rw [operated_append]; exact List.mem_append_right _ (by simp [operated]))
  | operatorKilled key content sps turns tries cfg sps' =>
    obtain ⟨st, h1, rfl⟩ := map_ok hs
    refine ⟨by simp [fresh], hm.store_step h1 (fun k b hp => ?_), by simp [fresh]⟩
    obtain ⟨rfl, rfl⟩ := puts_kill hp
    exact .inr (by rw [operated_append]; exact List.mem_append_right _ (by simp [operated]))
  | restart tries cfg sps =>
    obtain ⟨st, h1, rfl⟩ := map_ok hs
    exact ⟨by simp [fresh], hm.store_step h1 (fun k b hp => (puts_restart hp).elim), by simp [fresh]⟩

theorem run_inv (n : Node) (st0 : Store.Config × Store.Store) (es : List Ev) (s : State)
    (hr : run n (fresh st0) es = .ok s) : Inv n st0 es s := by
  have key : ∀ (post pre : List Ev) (s1 : State), run n (fresh st0) pre = .ok s1 → Inv n st0 pre s1 →
      ∀ s, run n (fresh st0) (pre ++ post) = .ok s → Inv n st0 (pre ++ post) s := by
    intro post
    induction post with
    | nil =>
      intro pre s1 h1 hi s h
      rw [List.append_nil] at h ⊢
      rw [h1] at h
      cases h
      exact hi
    | cons e post ih =>
      intro pre s1 h1 hi s h
      rw [List.append_cons] at h ⊢
      obtain ⟨s2, h2, _⟩ := (run_append n _ _ _ _).mp h
      obtain ⟨s3, h3, h4⟩ := (run_snoc n _ _ _ _).mp h2
      rw [h1] at h3
      cases h3
      exact ih (pre ++ [e]) s2 h2 (hi.step h1 h4) s h
  exact key es [] (fresh st0) rfl (Inv.init n st0) s hr

end Verif.StateNode
