import Verif.Props.LightNodeSpec

/-! # Lemmas about the life of a light client -/

namespace Verif.LightNode
open Verif.LightClient (Env Client Msg Bootstrap)
open Verif.Props.LightLife

variable {σ : Type}

/-- What requests, readings of the clock and verified messages preserve. -/
structure Keeps (env : Env) (cfg : LightClient.Config) (r : Rpc σ) (P : σ → Client → Prop) : Prop where
  updates : ∀ p n s c, P s c → P (r.updates p n s).2 c
  finality : ∀ s c, P s c → P (r.finality s).2 c
  optimistic : ∀ s c, P s c → P (r.optimistic s).2 c
  clock : ∀ s c, P s c → P (r.clock s).2 c
  process : ∀ s c c' m now, P s c → Given r m → slotAt beaconGenesis (r.clock s).1 = some now →
    LightClient.process env cfg now c m = .ok c' → P (r.clock s).2 c'

section
variable {env : Env} {cfg : LightClient.Config} {r : Rpc σ} {P : σ → Client → Prop}

theorem processNow_keeps (K : Keeps env cfg r P) (c : Client) (m : Msg) (s : σ) (hm : Given r m) (h : P s c) :
    P (processNow env cfg r c m s).2 (processNow env cfg r c m s).1.1 := by
  simp only [processNow, slotNow]
  cases ht : slotAt beaconGenesis (r.clock s).1 with
  | none => exact K.clock _ _ h
  | some now =>
    simp only []
    cases hp : LightClient.process env cfg now c m with
    | error e => exact K.clock _ _ h
    | ok c' => exact K.process s c c' m now h hm ht hp

theorem processList_keeps (K : Keeps env cfg r P) (ms : List Msg) (c : Client) (s : σ) (hm : ∀ m ∈ ms, Given r m)
    (h : P s c) : P (processList env cfg r c ms s).2 (processList env cfg r c ms s).1.1 := by
  induction ms generalizing c s with
  | nil => exact h
  | cons m ms ih =>
    have h1 := processNow_keeps K c m s (hm m (by simp)) h
    simp only [processList]
    split
    · exact h1
    · exact ih _ _ (fun x hx => hm x (List.mem_cons_of_mem _ hx)) h1

theorem collect_given (ps : List Nat) (s : σ) (ms : List Msg) (h : (collect r ps s).1 = .ok ms) :
    ∀ m ∈ ms, Given r m := by
  induction ps generalizing s ms with
  | nil => simp only [collect, Except.ok.injEq] at h; subst h; simp
  | cons p ps ih =>
    simp only [collect] at h
    cases h1 : (r.updates (UInt64.ofNat p) 1 s).1 with
    | error e => rw [h1] at h; cases h
    | ok us =>
      rw [h1] at h
      simp only [] at h
      cases h2 : (collect r ps (r.updates (UInt64.ofNat p) 1 s).2).1 with
      | error e => rw [h2] at h; cases h
      | ok rest =>
        rw [h2] at h
        simp only [Except.ok.injEq] at h
        subst h
        intro m hm
        rcases List.mem_append.mp hm with hm | hm
        · exact ⟨s, Or.inl ⟨_, _, _, h1, hm⟩⟩
        · exact ih _ _ h2 m hm

theorem collect_keeps (K : Keeps env cfg r P) (ps : List Nat) (c : Client) (s : σ) (h : P s c) :
    P (collect r ps s).2 c := by
  induction ps generalizing s with
  | nil => exact h
  | cons p ps ih =>
    have h1 := K.updates (UInt64.ofNat p) 1 s c h
    simp only [collect]
    split
    · exact h1
    · have h2 := ih _ h1
      split <;> exact h2

theorem fetchUpdates_given (first : Nat) (s : σ) (ms : List Msg) (h : (fetchUpdates r first s).1 = .ok ms) :
    ∀ m ∈ ms, Given r m := by
  simp only [fetchUpdates] at h
  split at h
  · simp only [slotNow] at h
    split at h
    · cases h
    · exact collect_given _ _ _ h
  · exact fun m hm => ⟨s, Or.inl ⟨_, _, _, h, hm⟩⟩

theorem fetchUpdates_keeps (K : Keeps env cfg r P) (first : Nat) (c : Client) (s : σ) (h : P s c) :
    P (fetchUpdates r first s).2 c := by
  simp only [fetchUpdates]
  split
  · simp only [slotNow]
    split
    · exact K.clock _ _ h
    · exact collect_keeps K _ _ _ (K.clock _ _ h)
  · exact K.updates _ _ _ _ h

theorem latestFinality_keeps (K : Keeps env cfg r P) (c : Client) (s : σ) (h : P s c) :
    P (latestFinality env cfg r c s).2 (latestFinality env cfg r c s).1.1 := by
  have hf := K.finality s c h
  simp only [latestFinality]
  split
  · next m hm => exact processNow_keeps K c m _ ⟨s, Or.inr (Or.inl hm)⟩ hf
  · exact hf
  · exact hf

theorem latestOptimistic_keeps (K : Keeps env cfg r P) (c : Client) (s : σ) (h : P s c) :
    P (latestOptimistic env cfg r c s).2 (latestOptimistic env cfg r c s).1.1 := by
  have ho := K.optimistic s c h
  simp only [latestOptimistic]
  split
  · exact ho
  · next m hm => exact processNow_keeps K c m _ ⟨s, Or.inr (Or.inr hm)⟩ ho

theorem latest_keeps (K : Keeps env cfg r P) (c : Client) (s : σ) (h : P s c) :
    P (latest env cfg r c s).2 (latest env cfg r c s).1.1 := by
  have hk := latestFinality_keeps K c s h
  simp only [latest]
  split
  · exact hk
  · exact latestOptimistic_keeps K _ _ hk

theorem advance_keeps (K : Keeps env cfg r P) (c : Client) (s : σ) (h : P s c) :
    P (advance env cfg r c s).2 (advance env cfg r c s).1.1 := by
  have hl := latest_keeps K c s h
  simp only [advance]
  split
  · exact hl
  · split
    · have hu := K.updates (UInt64.ofNat (LightClient.syncPeriod (latest env cfg r c s).1.1.store.finalized.slot.toNat))
        1 _ _ hl
      split
      · exact hu
      · next m hm =>
        have hp := processNow_keeps K (latest env cfg r c s).1.1 m _ ⟨_, Or.inl ⟨_, _, _, hm, by simp⟩⟩ hu
        split <;> exact hp
      · exact hu
    · exact hl

/-- A synchronisation: the bootstrap is refused, and nothing changes, or the client goes on from it. -/
theorem sync_cases (genesis : Nat) (c : Client) (s : σ) :
    ((sync env cfg genesis r c s).1.1 = c ∧ (sync env cfg genesis r c s).1.2 ≠ none ∧
      ((sync env cfg genesis r c s).2 = (r.bootstrap cfg.checkpoint s).2 ∨
       (sync env cfg genesis r c s).2 = (r.clock (r.bootstrap cfg.checkpoint s).2).2)) ∨
    ∃ b now c0, (r.bootstrap cfg.checkpoint s).1 = .ok b ∧
      slotAt genesis (r.clock (r.bootstrap cfg.checkpoint s).2).1 = some now ∧
      LightClient.bootstrap env cfg now c b = .ok c0 ∧
      ∀ P : σ → Client → Prop, Keeps env cfg r P → P (r.clock (r.bootstrap cfg.checkpoint s).2).2 c0 →
        P (sync env cfg genesis r c s).2 (sync env cfg genesis r c s).1.1 := by
  simp only [sync]
  cases hb : (r.bootstrap cfg.checkpoint s).1 with
  | error f => exact Or.inl ⟨rfl, by simp, Or.inl rfl⟩
  | ok boot =>
    simp only [slotNow]
    cases ht : slotAt genesis (r.clock (r.bootstrap cfg.checkpoint s).2).1 with
    | none => exact Or.inl ⟨rfl, by simp, Or.inr rfl⟩
    | some now =>
      simp only []
      cases hc : LightClient.bootstrap env cfg now c boot with
      | error e => exact Or.inl ⟨rfl, by simp, Or.inr rfl⟩
      | ok c0 =>
        refine Or.inr ⟨boot, now, c0, rfl, rfl, hc, fun P K h0 => ?_⟩
        simp only [syncFrom]
        have hu := fetchUpdates_keeps K (LightClient.syncPeriod c0.store.finalized.slot.toNat) c0 _ h0
        split
        · exact hu
        · next ms hms =>
          have hg := fetchUpdates_given _ _ _ hms
          have hp := processList_keeps K ms c0 _ hg hu
          split
          · exact hp
          · exact latest_keeps K _ _ hp

theorem bootstrap_ok (env : Env) (cfg : LightClient.Config) (now : Nat) (c c0 : Client) (b : Bootstrap)
    (h : LightClient.bootstrap env cfg now c b = .ok c0) :
    b.header.slot.toNat ≤ now ∧ LightClient.headerRoot env.H b.header = cfg.checkpoint ∧
    LightClient.currentCommitteeProofValid env b.header b.committee b.branch = true ∧
    c0 = { c with store := ⟨b.header, b.committee, none, b.header, 0, 0⟩ } := by
  simp only [LightClient.bootstrap] at h
  split at h; · cases h
  next h1 =>
  split at h; · cases h
  split at h; · cases h
  next h2 =>
  split at h; · cases h
  next h3 =>
  cases h
  exact ⟨by omega, by simpa using h2, by simpa using h3, rfl⟩

theorem bootstrap_tooOld (env : Env) (cfg : LightClient.Config) (now : Nat) (c : Client) (b : Bootstrap)
    (hs : cfg.strictCheckpointAge = false) : LightClient.bootstrap env cfg now c b ≠ .error .checkpointTooOld := by
  simp only [LightClient.bootstrap, hs]
  intro h
  split at h; · cases h
  split at h; · next h' => exact absurd h'.2 (by simp)
  split at h; · cases h
  split at h <;> cases h

theorem anchored_keeps (env : Env) (cfg : LightClient.Config) (r : Rpc σ) : Keeps env cfg r fun _ c => Anchored env cfg c where
  updates _ _ _ _ h := h
  finality _ _ h := h
  optimistic _ _ h := h
  clock _ _ h := h
  process := by
    rintro s c c' m now ⟨b, prior, h1, h2, h3⟩ - - hp
    exact ⟨b, prior, h1, h2, h3.step hp⟩

end

/-! ## The node -/

section
variable {env : Env} {web : Web σ}

/-- What a start keeps of the node. -/
theorem Node.sync_fields (n : Node σ) (s : σ) :
    (n.sync env s).1.2.settings = n.settings ∧ (n.sync env s).1.2.rpc = n.rpc ∧
    (n.sync env s).1.2.checkpoint = n.checkpoint ∧ (n.sync env s).1.2.threads = n.threads := by
  simp only [Node.sync]
  split
  · exact ⟨rfl, rfl, rfl, rfl⟩
  · split <;> exact ⟨rfl, rfl, rfl, rfl⟩

/-- Synchronisation of a node in terms of that of its client. -/
theorem Node.sync_eq (n : Node σ) (s : σ) :
    (n.sync env s = ((some .other, n), (n.rpc.chainId s).2)) ∨
    ∃ x, LightNode.sync env (n.settings.config n.checkpoint) n.settings.genesisTime n.rpc n.client (n.rpc.chainId s).2 = x ∧
      n.sync env s = ((x.1.2, { n with client := x.1.1 }), x.2) := by
  simp only [Node.sync]
  split
  · exact Or.inl rfl
  · split
    · exact Or.inl rfl
    · exact Or.inr ⟨_, rfl, rfl⟩

theorem Node.sync_ok (n : Node σ) (s : σ) (h : (n.sync env s).1.1 = none) :
    Anchored env (n.settings.config n.checkpoint) (n.sync env s).1.2.client := by
  rcases n.sync_eq (env := env) s with h1 | ⟨x, hx, h1⟩
  · rw [h1] at h; cases h
  · rw [h1] at h ⊢
    simp only at h ⊢
    subst hx
    rcases sync_cases (env := env) (cfg := n.settings.config n.checkpoint) (r := n.rpc) n.settings.genesisTime n.client
        (n.rpc.chainId s).2 with hc | ⟨b, now, c0, hb, ht, hc, hP⟩
    · exact absurd h hc.2.1
    · obtain ⟨-, h2, h3, h4⟩ := bootstrap_ok _ _ _ _ _ _ hc
      refine hP (fun _ c => Anchored env _ c) (anchored_keeps env _ n.rpc) ⟨b, n.client, h2, h3, ?_⟩
      rw [h4]
      exact .refl

theorem processNow_fail (cfg : LightClient.Config) (r : Rpc σ) (c : Client) (m : Msg) (s : σ) :
    (processNow env cfg r c m s).1.2 ≠ some .tooOld := by
  simp only [processNow]
  split
  · simp
  · split
    · next e he =>
      cases e <;> simp [failOf]
      simp only [LightClient.process] at he
      split at he
      · next e' hv =>
        cases he
        simp only [LightClient.verify] at hv
        repeat' split at hv
        all_goals first | (cases hv; done) | skip
        simp only [LightClient.checkSignature] at hv
        repeat' split at hv
        all_goals cases hv
      · cases he
    · simp

theorem processList_fail (cfg : LightClient.Config) (r : Rpc σ) (c : Client) (ms : List Msg) (s : σ) :
    (processList env cfg r c ms s).1.2 ≠ some .tooOld := by
  induction ms generalizing c s with
  | nil => simp [processList]
  | cons m ms ih =>
    simp only [processList]
    split
    · next f hf => rw [← hf]; exact processNow_fail cfg r c m s
    · exact ih _ _

theorem collect_fail {r : Rpc σ} (hr : Plain r) (ps : List Nat) (s : σ) : (collect r ps s).1 ≠ .error .tooOld := by
  induction ps generalizing s with
  | nil => simp [collect]
  | cons p ps ih =>
    have h1 := hr.updates (UInt64.ofNat p) 1 s
    simp only [collect]
    split
    · next f hf => intro h; cases h; exact h1 hf
    · split
      · next f hf => intro h; cases h; exact ih _ hf
      · simp

theorem fetchUpdates_fail {r : Rpc σ} (hr : Plain r) (first : Nat) (s : σ) :
    (fetchUpdates r first s).1 ≠ .error .tooOld := by
  simp only [fetchUpdates]
  split
  · split
    · simp
    · exact collect_fail hr _ _
  · exact hr.updates _ _ _

theorem latest_fail {r : Rpc σ} (hr : Plain r) (cfg : LightClient.Config) (c : Client) (s : σ) :
    (latest env cfg r c s).1.2 ≠ some .tooOld := by
  simp only [latest]
  split
  · next e he =>
    simp only [latestFinality] at he
    intro h
    cases h
    split at he
    · exact processNow_fail _ _ _ _ _ he
    · cases he
    · cases he
  · simp only [latestOptimistic]
    split
    · next e he => intro h; cases h; exact hr.optimistic _ he
    · exact processNow_fail _ _ _ _ _

/-- A checkpoint is too old only for a client that looks at the age. -/
theorem sync_tooOld {r : Rpc σ} (hr : Plain r) (cfg : LightClient.Config) (genesis : Nat) (c : Client) (s : σ)
    (h : (sync env cfg genesis r c s).1.2 = some .tooOld) : cfg.strictCheckpointAge = true := by
  cases hs : cfg.strictCheckpointAge with
  | true => rfl
  | false =>
    exfalso
    revert h
    simp only [sync]
    split
    · next f hf => intro h; cases h; exact hr.bootstrap _ _ hf
    · split
      · simp
      · split
        · next e he =>
          intro h
          have : e = .checkpointTooOld := by
            cases e <;> first | rfl | (simp [failOf] at h)
          subst this
          exact bootstrap_tooOld env cfg _ c _ hs he
        · simp only [syncFrom]
          split
          · next f hf => intro h; cases h; exact fetchUpdates_fail hr _ _ hf
          · split
            · next f hf => intro h; cases h; exact processList_fail _ _ _ _ _ hf
            · exact latest_fail hr _ _ _

theorem Node.sync_tooOld (n : Node σ) (hr : Plain n.rpc) (s : σ) (h : (n.sync env s).1.1 = some .tooOld) :
    n.settings.strict = true := by
  rcases n.sync_eq (env := env) s with h1 | ⟨x, hx, h1⟩
  · rw [h1] at h; cases h
  · rw [h1] at h
    subst hx
    exact LightNode.sync_tooOld hr (n.settings.config n.checkpoint) _ _ _ h

/-! ### Fallbacks -/

theorem Node.resync_fields (n : Node σ) (root : Id) (s : σ) :
    (n.resync env web root s).1.2.settings = n.settings ∧ (n.resync env web root s).1.2.threads = n.threads := by
  simp only [Node.resync]
  split
  · exact ⟨rfl, rfl⟩
  · next rpc _ =>
    have := Node.sync_fields (env := env) ({ n with rpc, checkpoint := root, client := emptyClient } : Node σ) s
    exact ⟨this.1, this.2.2.2⟩

theorem Node.resync_ok (n : Node σ) (root : Id) (s : σ) (h : (n.resync env web root s).1.1 = none) :
    (n.resync env web root s).1.2.checkpoint = root ∧
    Anchored env (n.settings.config root) (n.resync env web root s).1.2.client := by
  revert h
  simp only [Node.resync]
  split
  · simp
  · next rpc _ =>
    intro h
    have h1 := Node.sync_fields (env := env) ({ n with rpc, checkpoint := root, client := emptyClient } : Node σ) s
    exact ⟨h1.2.2.1, Node.sync_ok ({ n with rpc, checkpoint := root, client := emptyClient } : Node σ) s h⟩

theorem Node.bootFromFallback_fields (n : Node σ) (s : σ) :
    (n.bootFromFallback env web s).1.2.settings = n.settings ∧
    (n.bootFromFallback env web s).1.2.threads = n.threads := by
  simp only [Node.bootFromFallback]
  split
  · exact ⟨rfl, rfl⟩
  · split
    · exact ⟨rfl, rfl⟩
    · exact n.resync_fields _ _

theorem Node.bootFromFallback_ok (n : Node σ) (s : σ) (h : (n.bootFromFallback env web s).1.1 = none) :
    FromFallback web n (n.bootFromFallback env web s).1.2.checkpoint ∧
    Anchored env (n.settings.config (n.bootFromFallback env web s).1.2.checkpoint)
      (n.bootFromFallback env web s).1.2.client := by
  revert h
  simp only [Node.bootFromFallback]
  split
  · simp
  · next url hurl =>
    split
    · simp
    · next root hroot =>
      intro h
      obtain ⟨h1, h2⟩ := n.resync_ok root _ h
      rw [h1]
      refine ⟨?_, h2⟩
      simp only [fetchFromApi] at hroot
      split at hroot
      · cases hroot
      · cases hroot
      · next slot rest hs =>
        split at hroot
        · cases hroot
        · next r hr =>
          cases hroot
          exact ⟨url, slot, rest, s, hurl, hs, hr⟩

end

/-! ### Checkpoint services -/

theorem maxBy_some {α : Type} (key : α → Nat) (l : List α) (x : α) (h : maxBy key l = some x) :
    x ∈ l ∧ ∀ y ∈ l, key y ≤ key x := by
  induction l generalizing x with
  | nil => cases h
  | cons a l ih =>
    simp only [maxBy] at h
    cases hm : maxBy key l with
    | none =>
      rw [hm] at h
      cases h
      cases l with
      | nil => simp
      | cons b l =>
        simp only [maxBy] at hm
        split at hm
        · cases hm
        · split at hm <;> cases hm
    | some y =>
      rw [hm] at h
      simp only at h
      have ⟨h1, h2⟩ := ih y hm
      split at h <;> cases h
      · next hgt =>
        refine ⟨by simp, fun z hz => ?_⟩
        rcases List.mem_cons.mp hz with rfl | hz
        · exact Nat.le_refl _
        · exact Nat.le_trans (h2 z hz) (Nat.le_of_lt hgt)
      · next hgt =>
        refine ⟨List.mem_cons_of_mem _ h1, fun z hz => ?_⟩
        rcases List.mem_cons.mp hz with rfl | hz
        · omega
        · exact h2 z hz

theorem maxBy_none {α : Type} (key : α → Nat) (l : List α) : maxBy key l = none ↔ l = [] := by
  cases l with
  | nil => simp [maxBy]
  | cons a l =>
    simp only [maxBy]
    split
    · simp
    · split <;> simp

theorem mem_tally (l : List Id) (e : Id × Nat) : e ∈ tally l ↔ e.1 ∈ l ∧ e.2 = l.count e.1 := by
  induction l with
  | nil => simp [tally]
  | cons r rs ih =>
    simp only [tally, List.mem_cons, List.mem_filter, ih, decide_eq_true_eq]
    obtain ⟨a, n⟩ := e
    simp only [Prod.mk.injEq]
    by_cases har : a = r
    · subst har
      simp
    · have : (r :: rs).count a = rs.count a := by
        rw [List.count_cons]
        simp [show ¬ r = a from fun h => har h.symm]
      rw [this]
      simp [har]

def slotVote (s : Slot) : Option (Nat × Id) := s.blockRoot.map fun r => (s.epoch, r)

theorem vote_eq (a : Option (List Slot)) : vote a = (serviceSlot a).bind slotVote := by
  cases a with
  | none => rfl
  | some slots =>
    simp only [vote, serviceSlot]
    induction slots with
    | nil => rfl
    | cons x xs ih =>
      simp only [List.findSome?_cons, List.find?_cons]
      cases hx : x.blockRoot with
      | none => simpa using ih
      | some r => simp [slotVote, hx]

theorem votes_eq (l : List (Option (List Slot))) : votes l = (l.filterMap serviceSlot).filterMap slotVote := by
  simp only [votes, List.filterMap_filterMap]
  congr 1
  funext a
  rw [vote_eq]

theorem serviceSlot_root (a : Option (List Slot)) (s : Slot) (h : serviceSlot a = some s) : s.blockRoot.isSome = true := by
  cases a with
  | none => cases h
  | some slots =>
    simp only [serviceSlot] at h
    exact List.find?_some (p := fun s : Slot => s.blockRoot.isSome) h

theorem count_votes (slots : List Slot) (e : Nat) (r : Id) :
    (slots.filterMap slotVote).count (e, r) = ((slots.filter fun s => s.epoch == e).filterMap Slot.blockRoot).count r := by
  induction slots with
  | nil => rfl
  | cons x xs ih =>
    simp only [List.filterMap_cons, List.filter_cons, slotVote]
    cases hx : x.blockRoot with
    | none =>
      simp only [Option.map_none]
      by_cases he : x.epoch = e
      · simp only [he, beq_self_eq_true, if_true, List.filterMap_cons, hx]
        exact ih
      · simp only [beq_eq_false_iff_ne.mpr he, Bool.false_eq_true, if_false]
        exact ih
    | some r' =>
      simp only [Option.map_some, List.count_cons, ih]
      by_cases he : x.epoch = e
      · simp [he, List.filterMap_cons, hx, List.count_cons]
      · simp [he]

theorem pick_elected (order : List (Id × Nat) → List (Id × Nat)) (horder : ∀ l, (order l).Perm l)
    (answers : List (Option (List Slot))) (root : Id) (h : pickCheckpoint order answers = some root) :
    Elected (votes answers) root := by
  simp only [pickCheckpoint] at h
  rw [votes_eq]
  have hroot : ∀ s ∈ answers.filterMap serviceSlot, s.blockRoot.isSome = true := by
    intro s hs
    obtain ⟨a, -, ha⟩ := List.mem_filterMap.mp hs
    exact serviceSlot_root a s ha
  generalize answers.filterMap serviceSlot = slots at h hroot
  split at h
  · cases h
  · next top htop =>
    obtain ⟨-, hmax⟩ := maxBy_some _ _ _ htop
    simp only [Option.map_eq_some_iff] at h
    obtain ⟨e, he, rfl⟩ := h
    obtain ⟨hmem, hbest⟩ := maxBy_some _ _ _ he
    have hmem := (mem_tally _ _).mp ((horder _).mem_iff.mp hmem)
    have hcount := hmem.2
    rw [← count_votes] at hcount
    refine ⟨top.epoch, ?_, ?_, ?_⟩
    · rw [← List.count_pos_iff, ← hcount, hmem.2]
      exact List.count_pos_iff.mpr hmem.1
    · intro v hv
      obtain ⟨s, hs, hsv⟩ := List.mem_filterMap.mp hv
      simp only [slotVote, Option.map_eq_some_iff] at hsv
      obtain ⟨r, -, rfl⟩ := hsv
      exact hmax s hs
    · intro other
      simp only [support]
      rw [← hcount, count_votes]
      by_cases ho : other ∈ (slots.filter fun s => s.epoch == top.epoch).filterMap Slot.blockRoot
      · exact hbest (other, _) ((horder _).mem_iff.mpr ((mem_tally _ _).mpr ⟨ho, rfl⟩))
      · rw [List.count_eq_zero.mpr ho]
        exact Nat.zero_le _

theorem pick_none (order : List (Id × Nat) → List (Id × Nat)) (horder : ∀ l, (order l).Perm l)
    (answers : List (Option (List Slot))) : pickCheckpoint order answers = none ↔ votes answers = [] := by
  simp only [pickCheckpoint]
  rw [votes_eq]
  have hroot : ∀ s ∈ answers.filterMap serviceSlot, s.blockRoot.isSome = true := by
    intro s hs
    obtain ⟨a, -, ha⟩ := List.mem_filterMap.mp hs
    exact serviceSlot_root a s ha
  generalize answers.filterMap serviceSlot = slots at hroot
  cases slots with
  | nil => simp [maxBy]
  | cons x xs =>
    obtain ⟨r, hr⟩ := Option.isSome_iff_exists.mp (hroot x (by simp))
    have hne : ((x :: xs).filterMap slotVote) ≠ [] := by simp [slotVote, hr]
    constructor
    · intro h
      exfalso
      split at h
      · next hm => exact absurd ((maxBy_none _ _).mp hm) (by simp)
      · next top htop =>
        obtain ⟨hmem, -⟩ := maxBy_some _ _ _ htop
        obtain ⟨r', hr'⟩ := Option.isSome_iff_exists.mp (hroot top hmem)
        simp only [Option.map_eq_none_iff] at h
        have h := (maxBy_none _ _).mp h
        have : (r', (((x :: xs).filter fun s => s.epoch == top.epoch).filterMap Slot.blockRoot).count r') ∈
            tally (((x :: xs).filter fun s => s.epoch == top.epoch).filterMap Slot.blockRoot) :=
          (mem_tally _ (r', _)).mpr ⟨List.mem_filterMap.mpr ⟨top, List.mem_filter.mpr ⟨hmem, by simp⟩, hr'⟩, rfl⟩
        have := (horder _).mem_iff.mpr this
        rw [h] at this
        cases this
    · intro h
      exact absurd h hne

theorem askServices_answered (web : Web σ) (vs : List Service) (s : σ) :
    (askServices web vs s).1.length = vs.length ∧
    ∀ (i : Nat) (a : Option (List Slot)), (askServices web vs s).1[i]? = some a →
      ∃ (v : Service) (t : σ), vs[i]? = some v ∧ a = (web.slots (constructUrl v.endpoint) t).1 := by
  induction vs generalizing s with
  | nil => simp [askServices]
  | cons v vs ih =>
    simp only [askServices]
    obtain ⟨h1, h2⟩ := ih (web.slots (constructUrl v.endpoint) s).2
    refine ⟨by simp [h1], fun i a hi => ?_⟩
    cases i with
    | zero =>
      simp only [List.getElem?_cons_zero, Option.some.injEq] at hi
      exact ⟨v, s, rfl, hi.symm⟩
    | succ i =>
      simp only [List.getElem?_cons_succ] at hi ⊢
      exact h2 i a hi

theorem fetchLatest_ok (web : Web σ) (horder : ∀ l, (web.order l).Perm l) (s : σ) (root : Id)
    (h : (fetchLatest web s).1 = .ok root) : FromServices web root := by
  simp only [fetchLatest] at h
  split at h
  · cases h
  · next services hs =>
    split at h
    · cases h
    · next r hp =>
      cases h
      exact ⟨services, s, _, hs, askServices_answered web _ _, pick_elected _ horder _ _ hp⟩

/-! ### Starting -/

section
variable {env : Env} {web : Web σ}

theorem Node.bootFromExternal_ok (horder : ∀ l, (web.order l).Perm l) (n : Node σ) (s : σ)
    (h : (n.bootFromExternal env web s).1.1 = none) :
    FromServices web (n.bootFromExternal env web s).1.2.checkpoint ∧
    Anchored env (n.settings.config (n.bootFromExternal env web s).1.2.checkpoint)
      (n.bootFromExternal env web s).1.2.client := by
  revert h
  simp only [Node.bootFromExternal]
  split
  · simp
  · next root hroot =>
    intro h
    obtain ⟨h1, h2⟩ := n.resync_ok root _ h
    rw [h1]
    exact ⟨fetchLatest_ok web horder s root hroot, h2⟩

theorem Node.bootFromExternal_fields (n : Node σ) (s : σ) :
    (n.bootFromExternal env web s).1.2.settings = n.settings ∧
    (n.bootFromExternal env web s).1.2.threads = n.threads := by
  simp only [Node.bootFromExternal]
  split
  · exact ⟨rfl, rfl⟩
  · exact n.resync_fields _ _

theorem Node.start_fields (n : Node σ) (s : σ) : (n.start env web s).1.2.settings = n.settings ∧
    (n.start env web s).1.2.threads = n.threads + (if (n.start env web s).1.1 = none then 1 else 0) := by
  simp only [Node.start]
  generalize (if n.settings.rpcPort.isSome then web.serve s else (true, s)) = p
  split
  · exact ⟨rfl, by simp⟩
  · obtain ⟨h1, -, -, h4⟩ := n.sync_fields (env := env) p.2
    split
    · exact ⟨h1, by simp [Node.spawn, h4]⟩
    · generalize hm : (n.sync env p.2).1.2 = m at h1 h4
      obtain ⟨f1, f2⟩ := m.bootFromFallback_fields (env := env) (web := web) (n.sync env p.2).2
      simp only [Node.afterFallback]
      split
      · exact ⟨f1.trans h1, by simp [Node.spawn, f2, h4]⟩
      · next hf => exact ⟨f1.trans h1, by rw [hf]; simp [f2, h4]⟩
      · split
        · obtain ⟨g1, g2⟩ := (m.bootFromFallback env web (n.sync env p.2).2).1.2.bootFromExternal_fields (env := env)
            (web := web) (m.bootFromFallback env web (n.sync env p.2).2).2
          split
          · exact ⟨g1.trans (f1.trans h1), by simp [Node.spawn, g2, f2, h4]⟩
          · next hf => exact ⟨g1.trans (f1.trans h1), by rw [hf]; simp [g2, f2, h4]⟩
        · exact ⟨f1.trans h1, by simp [f2, h4]⟩
    · exact ⟨h1, by simp [h4]⟩

theorem Node.start_ok (horder : ∀ l, (web.order l).Perm l) (n : Node σ) (hr : Plain n.rpc) (s : σ)
    (h : (n.start env web s).1.1 = none) :
    Anchored env (n.settings.config (n.start env web s).1.2.checkpoint) (n.start env web s).1.2.client ∧
    ((n.start env web s).1.2.checkpoint = n.checkpoint ∨
      n.settings.strict = true ∧
        (FromFallback web n (n.start env web s).1.2.checkpoint ∨
          n.settings.loadExternal = true ∧ FromServices web (n.start env web s).1.2.checkpoint)) := by
  revert h
  simp only [Node.start]
  generalize (if n.settings.rpcPort.isSome then web.serve s else (true, s)) = p
  split
  · simp
  · obtain ⟨h1, -, h3, -⟩ := n.sync_fields (env := env) p.2
    split
    · next hn =>
      intro _
      have := n.sync_ok _ hn
      simp only [Node.spawn, h3]
      exact ⟨this, Or.inl trivial⟩
    · next ho =>
      have hstrict := n.sync_tooOld hr _ ho
      generalize hm : (n.sync env p.2).1.2 = m at h1 h3
      obtain ⟨f1, f2⟩ := m.bootFromFallback_fields (env := env) (web := web) (n.sync env p.2).2
      simp only [Node.afterFallback]
      split
      · next hb =>
        intro _
        obtain ⟨a, b⟩ := m.bootFromFallback_ok _ hb
        simp only [Node.spawn]
        rw [h1] at b
        obtain ⟨url, slot, rest, s0, u1, u2, u3⟩ := a
        exact ⟨b, Or.inr ⟨hstrict, Or.inl ⟨url, slot, rest, s0, h1 ▸ u1, u2, u3⟩⟩⟩
      · next hb => intro h; rw [hb] at h; cases h
      · split
        · next hl =>
          split
          · next he =>
            intro _
            obtain ⟨a, b⟩ := Node.bootFromExternal_ok horder _ _ he
            simp only [Node.spawn]
            rw [f1, h1] at b
            rw [f1, h1] at hl
            exact ⟨b, Or.inr ⟨hstrict, Or.inr ⟨hl, a⟩⟩⟩
          · next he => intro h; rw [he] at h; cases h
        · simp
    · simp

end

end Verif.LightNode
