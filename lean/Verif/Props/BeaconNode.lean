import Verif.Lemmas.BeaconNode
import Verif.Props.HistoryNodeSpec

/-! # C93: a node of the beacon network -/

namespace Verif.Props
open Verif.BeaconValue Verif.BeaconValidator Verif.SszT Verif.Merkle Verif.BeaconNode
open Verif.LightClient (Env Client Msg Header headerRoot)
open BeaconFormat (Belongs)
open BeaconNodes

variable {env : Env} {given : Option Id} {tie : Nat} {es : List Ev} {s : BeaconNode.State}

/-- Whatever happens, the node can go on and can be started again. -/
theorem C93_lives (env : Env) (given : Option Id) (tie : Nat) (es : List Ev) (hl : Late es) :
    ∃ s, Lives env given tie es s := by
  obtain ⟨s, h1, h2⟩ := Inv.init (env := env) (given := given) (tie := tie) |>.run es hl
  exact ⟨s, h1⟩

/-- What the node gives fits the key that it is asked for and comes from the operator, or from a peer who sent it when it was
acceptable to the light client of that moment. -/
theorem C93_gives (hl : Late es) (h : Lives env given tie es s) (key : ContentKey.Beacon) (bs : Bytes)
    (hg : get env s key = some bs) : ∃ v, bs = BeaconFormat.value v ∧ Genuine env given tie es key v :=
  get_genuine (reach hl h).facts key bs hg

/-- What tasks hold, and pass on, was acceptable when it came. -/
theorem C93_holds (hl : Late es) (h : Lives env given tie es s) (key : ContentKey.Beacon) (bs : Bytes)
    (hg : (key, bs) ∈ s.held) : ∃ v s', bs = BeaconFormat.value v ∧ AcceptedIn env given tie es s' key v := by
  obtain ⟨v, s', h1, h2⟩ := (reach hl h).held _ hg
  exact ⟨v, s', h1, h2⟩

/-- The other way around, content that is acceptable and that the node lacks is given after a task has stored it. -/
theorem C93_keeps (hl : Late es) (h : Lives env given tie es s) (key : ContentKey.Beacon) (v : Value) (now : Nat) (hnow : 864000 ≤ now)
    (hb : Belongs key v) (hok : BeaconRules.Acceptable env mainnet now (view s.client) key v) (hnew : Lacks env s key)
    (hfit : Fits env key v) :
    ∃ s', run env s [.arrived key (BeaconFormat.value v) now, .keep s.held.length (fun _ => true)] = some s' ∧
      BeaconNode.get env s' key = some (BeaconFormat.value v) := by
  have hval : validate env net now (oracleOf s.client) key (BeaconFormat.value v) = .valid :=
    (C55_accepts env net now _ _ _ hnow).mpr ⟨v, hb, rfl, hok⟩
  have e1 : step env s (.arrived key (BeaconFormat.value v) now) = some { s with held := s.held ++ [(key, BeaconFormat.value v)] } := by
    simp only [step, hval]
  have e2 : step env { s with held := s.held ++ [(key, BeaconFormat.value v)] } (.keep s.held.length fun _ => true) =
      some { s with held := s.held ++ [(key, BeaconFormat.value v)]
                    store := putIf env.H true s.store key (BeaconFormat.value v) fun _ => true } := by
    simp only [step, List.getElem?_concat_length]
  refine ⟨_, by simp only [run, e1, e2]; rfl, ?_⟩
  have hput : (BeaconStore.shouldWeStore (codec env.H) s.store (storeKey key) = .ok .store) →
      putIf env.H true s.store key (BeaconFormat.value v) (fun _ => true) =
        (BeaconStore.put (codec env.H) s.store (storeKey key) (BeaconFormat.value v) fun _ => true).1 := by
    intro hs
    simp only [putIf, if_true, hs]
  cases key with
  | bootstrap root =>
    cases v <;> first | exact hb.elim | skip
    next v =>
    have hlook : BeaconStore.lookupBoot s.store root.bytes = none := hnew
    have hdec := decBoot_value env.H v
    generalize BeaconFormat.value (.bootstrap v) = bs at *
    rw [hput (by simp only [storeKey, BeaconStore.shouldWeStore, hlook]; rfl)]
    simp only [storeKey, BeaconStore.put, hdec, hfit.1, BeaconStore.sqlInt, hfit.2, if_true, BeaconNode.get, BeaconStore.get,
      BeaconStore.insertBoot]
    have hany : (s.store.boots.any fun x => decide (x.root = root.bytes)) = false := by
      rw [BeaconStore.any_key]
      simpa [BeaconStore.lookupBoot] using hlook
    rw [hany]
    have : (s.store.boots.find? fun x => decide (x.root = root.bytes)) = none := by
      simpa [BeaconStore.lookupBoot] using hlook
    simp [BeaconStore.lookupBoot, List.find?_append, this]
  | finalityUpdate slot =>
    cases v <;> first | exact hb.elim | skip
    next v =>
    obtain ⟨u, rfl, hle, -⟩ := hok
    have hlook : BeaconStore.getFinality (codec env.H) s.store slot = none := by
      simpa [Lacks, BeaconNode.get, storeKey, BeaconStore.get] using hnew
    have hdec := decFin_value env.H ⟨.electra, u⟩
    have henc := encFin_value env.H ⟨.electra, u⟩
    generalize BeaconFormat.value (.finality ⟨.electra, u⟩) = bs at *
    rw [hput (by simp only [storeKey, BeaconStore.shouldWeStore, hlook]; rfl)]
    simp only [storeKey, BeaconStore.put, hdec, BeaconNode.get, BeaconStore.get, BeaconStore.getFinality]
    rw [show (codec env.H).electraSlot ⟨.electra, u⟩ = some u.finalized.beacon.slot from rfl]
    simp only [if_pos hle]
    exact congrArg some henc
  | optimisticUpdate slot =>
    cases v <;> first | exact hb.elim | skip
    next v =>
    obtain ⟨u, rfl, hle, -⟩ := hok
    have hlook : BeaconStore.getOptimistic (codec env.H) s.store slot = none := by
      simpa [Lacks, BeaconNode.get, storeKey, BeaconStore.get] using hnew
    have hdec := decOpt_value env.H ⟨.electra, u⟩
    have henc := encOpt_value env.H ⟨.electra, u⟩
    generalize BeaconFormat.value (.optimistic ⟨.electra, u⟩) = bs at *
    rw [hput (by simp only [storeKey, BeaconStore.shouldWeStore, hlook])]
    simp only [storeKey, BeaconStore.put, hdec, BeaconNode.get, BeaconStore.get, BeaconStore.getOptimistic]
    rw [show (codec env.H).sigSlot ⟨.electra, u⟩ = u.signatureSlot from rfl]
    rw [if_pos (by rw [hle]; exact UInt64.le_refl _)]
    exact congrArg some henc
  | historicalSummaries epoch =>
    cases v <;> first | exact hb.elim | skip
    next f x =>
    have he : epoch.toNat < 2 ^ 63 := hfit
    have hlook : BeaconStore.lookupSummaries s.store epoch = .ok none := by
      simp only [Lacks, BeaconNode.get, storeKey, BeaconStore.get] at hnew
      cases hr : BeaconStore.lookupSummaries s.store epoch with
      | ok r => rw [hr] at hnew; rw [show r = none from hnew]
      | error e =>
        simp only [BeaconStore.lookupSummaries, BeaconStore.sqlInt, if_pos he] at hr
        split at hr <;> cases hr
    have hdec := decSum_value env.H f x
    generalize BeaconFormat.value (.summaries f x) = bs at *
    rw [hput (by simp only [storeKey, BeaconStore.shouldWeStore, hlook]; rfl)]
    simp [storeKey, BeaconStore.put, hdec, BeaconNode.get, BeaconStore.get, BeaconStore.lookupSummaries, BeaconStore.sqlInt, he]
  | updatesByRange start count =>
    cases v <;> first | exact hb.elim | skip
    next l =>
    have hrange : start.toNat + count.toNat ≤ 2 ^ 63 := hfit
    have hlen : l.1.length = count.toNat := hok.1
    have hrow : ∀ p, start.toNat ≤ p → p < start.toNat + count.toNat → BeaconStore.updateRow s.store p = none := by
      intro p h1 h2
      have hp : (UInt64.ofNat p).toNat = p := by simp; omega
      have hn := hnew (UInt64.ofNat p) (by rw [UInt64.le_iff_toNat_le, hp]; exact h1) (by rw [hp]; exact h2)
      cases hu : BeaconStore.updateRow s.store p with
      | none => rfl
      | some bs =>
        exfalso
        obtain ⟨u, hu'⟩ := (reach hl h).facts.updateRow hu
        have hone : BeaconStore.periods (UInt64.ofNat p) 1 = [p] := by
          rw [BeaconStore.periods_eq _ _ (by rw [hp]; simp; omega), hp]; rfl
        simp only [BeaconNode.get, storeKey, BeaconStore.get, hone, BeaconStore.collectUpdates,
          BeaconStore.lookupUpdate_eq s.store (show p < 2 ^ 63 by omega), hu, hu', List.nil_append, List.length_singleton] at hn
        cases hn
    have hper : BeaconStore.periods start count = List.range' start.toNat count.toNat := BeaconStore.periods_eq _ _ (by omega)
    have hask : BeaconStore.shouldWeStore (codec env.H) s.store (.updates start count) = .ok .store := by
      rw [BeaconStore.shouldWeStore, hper, BeaconStore.anyStored_spec _ _ hrange, if_neg]
      intro hany
      obtain ⟨i, hi, h⟩ := List.any_eq_true.mp hany
      rw [hrow _ (by omega) (by have := List.mem_range.mp hi; omega)] at h
      cases h
    rw [hput hask]
    have hrows := collect_all (H := env.H) (st := BeaconStore.insertUpdates (codec env.H) (fun _ => true) 0 s.store
      ((List.range' start.toNat count.toNat).zip l.1)) l.1 start.toNat [] (by omega) (by
        intro i u hu
        have hi : i < l.1.length := (List.getElem?_eq_some_iff.mp hu).1
        rw [BeaconStore.insertUpdates_row, hrow _ (by omega) (by omega), Option.none_or, if_pos ⟨by omega, by omega, by omega, rfl⟩,
          Nat.add_sub_cancel_left, hu]
        rfl)
    rw [hlen] at hrows
    simp only [storeKey, BeaconStore.put, decUpdates_value, BeaconNode.get, BeaconStore.get, hper, hrows, List.nil_append, encUpdates_value]
    rw [if_pos l.2]

/-- Pruning takes away exactly the bootstraps of more than 120 days ago. -/
theorem C93_prune (hl : Late es) (h : Lives env given tie es s) (now : Nat) :
    ∃ s', step env s (.prune now) = some s' ∧
      (∀ root v, BeaconNode.get env s' (.bootstrap root) = some (BeaconFormat.value (.bootstrap v)) ↔
        BeaconNode.get env s (.bootstrap root) = some (BeaconFormat.value (.bootstrap v)) ∧
          now ≤ v.2.header.beacon.slot.toNat + 864000) ∧
      ∀ key, (∀ root, key ≠ .bootstrap root) → BeaconNode.get env s' key = BeaconNode.get env s key := by
  have hf := (reach hl h).facts
  refine ⟨_, rfl, fun root v => ?_, fun key hk => ?_⟩
  · have hg : ∀ st : Store, ∀ s0 : BeaconNode.State, s0.store = st →
        BeaconNode.get env s0 (.bootstrap root) = BeaconStore.lookupBoot st root.bytes := by
      rintro st s0 rfl; rfl
    rw [hg (BeaconStore.prune s.store (now - 864000)) _ rfl, hg s.store s rfl]
    have hn : ((BeaconStore.prune s.store (now - 864000)).boots.map (·.root)).Nodup :=
      hf.nodup.sublist (List.filter_sublist.map _)
    constructor
    · intro hb
      obtain ⟨r, hr, h1, h2⟩ := lookupBoot_mem hb
      obtain ⟨hr, hslot⟩ := List.mem_filter.mp hr
      refine ⟨by rw [← h1, lookupBoot_of_mem hf.nodup hr, h2], ?_⟩
      obtain ⟨v', k, f1, -, f3, -⟩ := hf.boots r hr
      have := value_boot_inj (f1.symm.trans h2)
      subst this
      rw [← f3]
      simp at hslot
      omega
    · rintro ⟨hb, hage⟩
      obtain ⟨r, hr, h1, h2⟩ := lookupBoot_mem hb
      obtain ⟨v', k, f1, -, f3, -⟩ := hf.boots r hr
      have := value_boot_inj (f1.symm.trans h2)
      subst this
      have hr' : r ∈ (BeaconStore.prune s.store (now - 864000)).boots := List.mem_filter.mpr ⟨hr, by simp; omega⟩
      rw [← h1, lookupBoot_of_mem hn hr', h2]
  · have hc : ∀ (ps : List Nat) (acc : List (Versioned Update)),
        BeaconStore.collectUpdates (codec env.H) (BeaconStore.prune s.store (now - 864000)) acc ps =
          BeaconStore.collectUpdates (codec env.H) s.store acc ps := by
      intro ps
      induction ps with
      | nil => intro acc; rfl
      | cons p ps ih =>
        intro acc
        have : BeaconStore.lookupUpdate (BeaconStore.prune s.store (now - 864000)) p = BeaconStore.lookupUpdate s.store p := rfl
        simp only [BeaconStore.collectUpdates, this, ih]
    cases key with
    | bootstrap root => exact absurd rfl (hk root)
    | updatesByRange a b => simp only [BeaconNode.get, storeKey, BeaconStore.get, hc]
    | finalityUpdate k => rfl
    | optimisticUpdate k => rfl
    | historicalSummaries k => rfl

/-- The validator of the history network is answered with the summaries that the node gives for that epoch. -/
theorem C93_oracle (hl : Late es) (h : Lives env given tie es s) (epoch : UInt64) (l : List HeaderValidator.Summary) :
    summariesFor env s epoch.toNat = some l ↔
      ∃ f x, BeaconNode.get env s (.historicalSummaries epoch) = some (BeaconFormat.value (.summaries f x)) ∧
        l = x.summaries.1.map fun r => ⟨r.blockRoot, r.stateRoot⟩ := by
  rw [summariesFor, UInt64.ofNat_toNat]
  cases hg : BeaconNode.get env s (.historicalSummaries epoch) with
  | none => simp
  | some bs =>
    obtain ⟨v, rfl, hv⟩ := C93_gives hl h _ _ hg
    cases v <;> first | exact hv.elim | skip
    next f x =>
    simp only [decodeSummaries_value, Option.some.injEq]
    constructor
    · rintro rfl; exact ⟨f, x, rfl, rfl⟩
    · rintro ⟨f', x', h1, rfl⟩
      have := decodeSummaries_value f' x'
      rw [← h1, decodeSummaries_value] at this
      cases this
      rfl

/-- Without the operator's doing, a node that has summaries for an epoch goes on having some for it, and none earlier. -/
theorem C93_summaries_kept (env : Env) (s s' : BeaconNode.State) (more : List Ev) (hno : Unattended more)
    (h : run env s more = some s') (epoch : UInt64) (hg : ∃ bs, BeaconNode.get env s (.historicalSummaries epoch) = some bs) :
    ∃ bs, BeaconNode.get env s' (.historicalSummaries epoch) = some bs := by
  induction more generalizing s with
  | nil => cases h; exact hg
  | cons e more ih =>
    simp only [run] at h
    split at h
    · next t ht =>
      refine ih t (fun ask key bs w hm => hno ask key bs w (List.mem_cons_of_mem _ hm)) h ?_
      obtain ⟨bs, hbs⟩ := hg
      obtain ⟨h63, n, hn, hle⟩ := (get_summaries env s epoch bs).mp hbs
      rcases step_summaries (fun ask key bs w he => hno ask key bs w (he ▸ List.mem_cons_self)) ht with he | ⟨n', bs', he, -, hlt⟩
      · exact ⟨bs, (get_summaries env t epoch bs).mpr ⟨h63, n, he.trans hn, hle⟩⟩
      · have := hlt _ hn
        exact ⟨bs', (get_summaries env t epoch bs').mpr ⟨h63, n', he, by simp only at this; omega⟩⟩
    · cases h

/-! ## Whom the node trusts -/

/-- A process trusts the root of its configuration; without one, the newest bootstrap in the store, and with an empty store the
root that comes with the program.
Missing: that no peer can choose the newest bootstrap, see `C93_root_violated`. -/
theorem C93_root_partial (hl : Late es) (given' : Option Id) (tie' : Nat) (h : Lives env given tie (es ++ [.restart given' tie']) s) :
    (∀ r, given' = some r → s.root = r) ∧
    (given' = none → Newest env s s.root ∨ (s.root = defaultRoot ∧ ∀ root, get env s (.bootstrap root) = none)) := by
  obtain ⟨t, ht, hst⟩ := lives_last h
  have hinv := reach hl ht
  have hs : BeaconNode.step env t (.restart given' tie') =
      some (fresh given' tie' { t.store with fin := none, opt := none }) := by
    simp only [BeaconNode.step, hinv.facts.reopen, Option.map_some]
  rw [hs] at hst
  cases hst
  refine ⟨fun r hr => by subst hr; rfl, fun hn => ?_⟩
  subst hn
  cases hr : latestRoot { t.store with fin := none, opt := none } tie' with
  | none =>
    have hb : t.store.boots = [] := latestRoot_none hr
    refine Or.inr ⟨by simp only [fresh, trustedRoot, hr]; rfl, fun root => ?_⟩
    simp [BeaconNode.get, storeKey, BeaconStore.get, BeaconStore.lookupBoot, fresh, hb]
  | some root =>
    left
    obtain ⟨r, hm, hmax, he⟩ := latestRoot_some hr
    obtain ⟨v, k, e1, e2, e3, -⟩ := hinv.facts.boots r hm
    have hroot : root = headerRoot env.H v.2.header.beacon := by rw [he, e2, ofBytes]
    have hsr : (fresh none tie' { t.store with fin := none, opt := none }).root = root := by
      simp only [fresh, trustedRoot, hr]
    rw [hsr]
    have hget : ∀ root', get env (fresh none tie' { t.store with fin := none, opt := none }) (.bootstrap root') =
        BeaconStore.lookupBoot t.store root'.bytes := fun _ => rfl
    refine ⟨v, ?_, hroot.symm, ?_⟩
    · rw [hget, hroot, ← e2, lookupBoot_of_mem hinv.facts.nodup hm, e1]
    · intro root' v' hv'
      rw [hget] at hv'
      obtain ⟨r', hm', -, hval⟩ := lookupBoot_mem hv'
      obtain ⟨v2, k2, f1, -, f3, -⟩ := hinv.facts.boots r' hm'
      have := value_boot_inj (f1.symm.trans hval)
      subst this
      have := hmax r' hm'
      rw [UInt64.le_iff_toNat_le, ← f3, ← e3]
      exact this

/-- So the root of a process is the configured one, the built-in one, or that of a bootstrap that the operator put in or a peer
had sent. -/
theorem C93_trust (hl : Late es) (h : Lives env given tie es s) :
    (∀ r, configured given es = some r → s.root = r) ∧
    (configured given es = none → s.root = defaultRoot ∨
      ∃ k v, Source env given tie es (.bootstrap k) (.bootstrap v) ∧ headerRoot env.H v.2.header.beacon = s.root) :=
  ⟨(reach hl h).chosen, (reach hl h).trust⟩

/-- Within a process the root does not change. -/
theorem C93_root_kept (env : Env) (s s' : BeaconNode.State) (es : List Ev) (hno : ∀ g t, .restart g t ∉ es)
    (h : run env s es = some s') : s'.root = s.root := by
  induction es generalizing s with
  | nil => cases h; rfl
  | cons e es ih =>
    simp only [run] at h
    split at h
    · next t ht =>
      rw [ih t (fun g t hm => hno g t (List.mem_cons_of_mem _ hm)) h]
      cases e with
      | arrived key content now => simp only [step] at ht; split at ht <;> (cases ht; rfl)
      | keep i w => simp only [step] at ht; split at ht <;> (cases ht; rfl)
      | operator ask key content w => cases ht; rfl
      | prune now => cases ht; rfl
      | restart g t => exact absurd List.mem_cons_self (hno g t)
      | heard now m =>
        rcases step_heard (env := env) (s := s) (now := now) (m := m) with h | ⟨_, _, _, _, h⟩ <;> (rw [h] at ht; cases ht; rfl)
      | started prior now b msgs =>
        rcases step_started (env := env) (s := s) (prior := prior) (now := now) (b := b) (msgs := msgs) with h | ⟨_, _, _, _, _, h⟩ <;>
          (rw [h] at ht; cases ht; rfl)
    · cases h

/-- The light client began at a bootstrap with the root of this process and came by verified messages to where it is. -/
theorem C93_anchor (hl : Late es) (h : Lives env given tie es s) (c : Client) (hc : s.client = some c) :
    LightLife.Anchored env (LightLife.mainnetConfig s.root) c := (reach hl h).client c hc

/-- The events of the light client are those of C84: a start that succeeds and any number of turns of its thread are a start
and messages heard here. -/
theorem C93_light {σ : Type} (env : Env) (web : LightNode.Web σ) (rpc : LightNode.Rpc σ) (hr : LightLife.Plain rpc) (file : Option Bytes)
    (w w' : σ) (n : LightNode.Node σ) (k : Nat) (s : BeaconNode.State) (hs : s.client = none)
    (h : LightNode.beaconSync env web rpc s.root file w = ((none, some n, k), w')) (j : Nat) (t : σ) :
    ∃ prior now b heard, (∀ e ∈ heard, ∃ now m, e = Ev.heard now m) ∧
      run env s (.started prior now b [] :: heard) = some { s with client := some (n.turns env j t).1.1.client } := by
  obtain ⟨m, t0, -, -, -, hm, m1, m2, m3, -, n1, n2, n3, n4⟩ := LightNode.beaconSync_ok hr s.root file w w' n k h
  have hcfg : m.settings.config m.checkpoint = clientConfig s.root := by rw [m1, m3]; rfl
  have hcfg' : n.settings.config n.checkpoint = clientConfig s.root := by rw [n1, n3]; rfl
  let P : σ → Client → Prop := fun _ c => ∃ prior now b heard, (∀ e ∈ heard, ∃ now m, e = Ev.heard now m) ∧
      run env s (.started prior now b [] :: heard) = some { s with client := some c }
  have K : ∀ r : LightNode.Rpc σ, LightNode.Keeps env (clientConfig s.root) r P := fun r =>
    { updates := fun _ _ _ _ h => h
      finality := fun _ _ h => h
      optimistic := fun _ _ h => h
      clock := fun _ _ h => h
      process := by
        rintro u c c' msg now ⟨prior, now0, b, heard, h1, h2⟩ - - hp
        refine ⟨prior, now0, b, heard ++ [.heard now msg], ?_, ?_⟩
        · intro e he
          rcases List.mem_append.mp he with he | he
          · exact h1 e he
          · exact ⟨now, msg, List.mem_singleton.mp he⟩
        · rw [← List.cons_append, run_append, h2]
          simp only [Option.bind_some, run, step, hp] }
  have ha : P w' n.client := by
    refine LightNode.start_keeps (by rw [m2]; exact hr) (by rw [m1]; rfl) (by rw [m1]; rfl) hm P (by rw [hcfg]; exact K _) ?_
    intro s0 b now c0 _ _ hb
    rw [hcfg] at hb
    exact ⟨m.client, now, b, [], by simp, by simp only [run, step, hs, hb, LightClient.processAll]⟩
  have := LightNode.Node.turns_keeps (n := n) (P := P) (by rw [hcfg']; exact K _) j t ha
  exact this

/-! ## The chain -/

/-- With honest committees, configured roots on the chain, an honest operator, and no forged bootstraps accepted before the
light client runs, the light client follows the chain, through all restarts, and the bootstraps that the node gives are of the
chain. -/
theorem C93_chain (ch : Chain) (hl : Late es) (h : Lives env given tie es s) (ha : Assumed env given tie ch es) :
    (∀ c, s.client = some c → Follows ch c) ∧
    ∀ root bs, get env s (.bootstrap root) = some bs → ∃ v, bs = BeaconFormat.value (.bootstrap v) ∧
      headerRoot env.H v.2.header.beacon = root ∧ ch.canonical v.2.header.beacon := by
  refine ⟨fun c hc => follows hl h ha hc, fun root bs hg => ?_⟩
  obtain ⟨v, h1, h2⟩ := C93_gives hl h _ _ hg
  cases v <;> first | exact h2.elim | skip
  next v =>
  obtain ⟨h2, k, h3⟩ := h2
  exact ⟨v, h1, h2, source_canonical hl ha h3⟩

/-- Then, if also no summaries are accepted before the light client runs and none come from the operator, the summaries that the
node gives are proved by the state of a header of the chain, and they came for the epoch asked for or a later one. -/
theorem C93_summaries (ch : Chain) (hl : Late es) (h : Lives env given tie es s) (ha : Assumed env given tie ch es)
    (hop : ∀ k v, ¬ Operated es (.historicalSummaries k) v)
    (hearly : ∀ s' k v, AcceptedIn env given tie es s' (.historicalSummaries k) v → s'.client ≠ none)
    (epoch : UInt64) (bs : Bytes) (hg : get env s (.historicalSummaries epoch) = some bs) :
    ∃ f x header, bs = BeaconFormat.value (.summaries f x) ∧ epoch ≤ x.epoch ∧ ch.canonical header ∧
      verifyMerkleProof env.H (summariesRoot env.H x.summaries.1) x.proof.1 6 27 header.stateRoot = true := by
  obtain ⟨v, h1, h2⟩ := C93_gives hl h _ _ hg
  cases v <;> first | exact h2.elim | skip
  next f x =>
  obtain ⟨k, hk, ⟨s', hacc⟩ | hop'⟩ := h2
  · cases hc : s'.client with
    | none => exact absurd hc (hearly s' k _ hacc)
    | some c =>
      obtain ⟨pre, now, post, rfl, hlive, -, hok⟩ := hacc
      have hf := follows (Late.less hl) hlive (Assumed.less ha) hc
      refine ⟨f, x, c.store.finalized, h1, ?_, hf.finalized, hok.2 _ (by simp [view, hc])⟩
      rw [hok.1]; exact hk
  · exact absurd hop' (hop k _)

/-- The summaries as the history network reads them. -/
def historySummary (x : BeaconValue.Summary) : HeaderValidator.Summary := ⟨x.blockRoot, x.stateRoot⟩

/-- Under these assumptions the answers to the history network are what C91 assumes of them: beginnings of the list of which the
states of the chain have beginnings, unless hashed pairs collide. -/
theorem C93_history (ch : Chain) (hl : Late es) (ha : Assumed env given tie ch es)
    (hop : ∀ k v, ¬ Operated es (.historicalSummaries k) v)
    (hearly : ∀ s' k v, AcceptedIn env given tie es s' (.historicalSummaries k) v → s'.client ≠ none)
    (truth : List BeaconValue.Summary) (states : Header → Nat → Id) (sums : Header → BList BeaconValue.Summary 16777216)
    (htrue : ∀ h, ch.canonical h → StateSummaries env.H truth h (states h) (sums h))
    (hcol : ∀ s' k f x h, AcceptedIn env given tie es s' (.historicalSummaries k) (.summaries f x) → ch.canonical h →
      ¬ CollisionBetween env.H (summariesPairs env.H x.summaries.1) (summariesPairs env.H (sums h).1) ∧
      ¬ CollisionBetween env.H (branchPairs env.H (summariesRoot env.H x.summaries.1) x.proof.1 27) (treePairs env.H 6 (states h)))
    (events : List HistoryNode.Ev)
    (hsrc : ∀ f ∈ HistoryNodes.sources events, ∃ pre post s, es = pre ++ post ∧ Lives env given tie pre s ∧ f = summariesFor env s) :
    HistoryNodes.SummariesTrue events (truth.map historySummary) := by
  intro f hf e l hfe
  obtain ⟨pre, post, s, rfl, hlive, rfl⟩ := hsrc f hf
  have hl' := Late.less hl
  have ha' := Assumed.less ha
  unfold summariesFor at hfe
  split at hfe
  · cases hfe
  · next bs hg =>
    obtain ⟨v, h1, h2⟩ := C93_gives hl' hlive _ _ hg
    cases v <;> first | exact h2.elim | skip
    next fk x =>
    obtain ⟨k, hk, ⟨s', hacc⟩ | hop'⟩ := h2
    · have hacc' := AcceptedIn.more post hacc
      cases hc : s'.client with
      | none => exact absurd hc (hearly s' k _ hacc')
      | some c =>
        have hcol' : ∀ h, ch.canonical h → _ := fun h hh => hcol s' k fk x h hacc' hh
        obtain ⟨pre', now, post', rfl, hlive', -, hok⟩ := hacc
        have hfol := follows (Late.less hl') hlive' (Assumed.less ha') hc
        have hproof := hok.2 c.store.finalized.stateRoot (by simp [view, hc])
        obtain ⟨t1, t2, t3⟩ := htrue _ hfol.finalized
        rw [h1, decodeSummaries_value] at hfe
        simp only [Option.some.injEq] at hfe
        have hx : x.summaries = sums c.store.finalized := by
          rw [t1] at hproof
          rcases C29_sound env.H _ _ _ _ _ hproof with he | hcc
          · rcases C55_summaries_binding env.H _ _ (he.trans t2) with hb | hb
            · exact hb
            · exact absurd hb (hcol' _ hfol.finalized).1
          · exact absurd hcc (hcol' _ hfol.finalized).2
        rw [← hfe, hx]
        exact t3.map historySummary
    · exact absurd (Operated.more post hop') (hop k _)

/-! ## Where it goes wrong -/

/-- Before the light client runs, one peer can send a bootstrap of a header of its own making, with a committee of its own
making: the next process that has no configured root trusts it, and its light client begins there. -/
theorem C93_root_violated (env : Env) (given : Option Id) (tie tie' now now' : Nat) (k : Id) (v : Bootstrap .electra) (prior : Client)
    (hnow : 864000 ≤ now) (hyoung : now ≤ v.header.beacon.slot.toNat + 864000) (hslot : v.header.beacon.slot.toNat < 2 ^ 63)
    (hpast : v.header.beacon.slot.toNat ≤ now')
    (hown : LightClient.currentCommitteeProofValid env v.header.beacon (committeeOf v.currentSyncCommittee) v.branch.1 = true) :
    ∃ s c, Lives env given tie
        [.arrived (.bootstrap k) (BeaconFormat.value (.bootstrap ⟨.electra, v⟩)) now, .keep 0 (fun _ => true), .restart none tie',
          .started prior now' ⟨v.header.beacon, committeeOf v.currentSyncCommittee, v.branch.1⟩ []] s ∧
      s.root = headerRoot env.H v.header.beacon ∧ s.client = some c ∧ c.store.finalized = v.header.beacon ∧
      c.store.current = committeeOf v.currentSyncCommittee := by
  have hval := (C55_unchecked env net now hnow).1 k .electra v hyoung
  have hdec := decBoot_value env.H ⟨.electra, v⟩
  refine ⟨⟨⟨[⟨(headerRoot env.H v.header.beacon).bytes, BeaconFormat.value (.bootstrap ⟨.electra, v⟩), v.header.beacon.slot.toNat⟩], [],
    none, none, none⟩, some { prior with store := ⟨v.header.beacon, committeeOf v.currentSyncCommittee, none, v.header.beacon, 0, 0⟩ },
    headerRoot env.H v.header.beacon, []⟩, _, ?_, rfl, rfl, rfl, rfl⟩
  generalize BeaconFormat.value (.bootstrap ⟨.electra, v⟩) = bs at hval hdec
  have e1 : step env (fresh given tie BeaconStore.init) (.arrived (.bootstrap k) bs now) =
      some ⟨BeaconStore.init, none, trustedRoot given BeaconStore.init tie, [(.bootstrap k, bs)]⟩ := by
    simp only [step, fresh, oracleOf, Option.map_none, hval]
    rfl
  have e2 : step env ⟨BeaconStore.init, none, trustedRoot given BeaconStore.init tie, [(.bootstrap k, bs)]⟩ (.keep 0 fun _ => true) =
      some ⟨⟨[⟨(headerRoot env.H v.header.beacon).bytes, bs, v.header.beacon.slot.toNat⟩], [], none, none, none⟩, none,
        trustedRoot given BeaconStore.init tie, [(.bootstrap k, bs)]⟩ := by
    simp only [step, List.getElem?_cons_zero, putIf, if_true, storeKey, BeaconStore.shouldWeStore, BeaconStore.put, hdec,
      BeaconStore.sqlInt, hslot, BeaconStore.insertBoot, BeaconStore.lookupBoot, BeaconStore.init]
    rfl
  have e3 : step env ⟨⟨[⟨(headerRoot env.H v.header.beacon).bytes, bs, v.header.beacon.slot.toNat⟩], [], none, none, none⟩, none,
        trustedRoot given BeaconStore.init tie, [(.bootstrap k, bs)]⟩ (.restart none tie') =
      some ⟨⟨[⟨(headerRoot env.H v.header.beacon).bytes, bs, v.header.beacon.slot.toNat⟩], [], none, none, none⟩, none,
        headerRoot env.H v.header.beacon, []⟩ := by
    simp [step, BeaconStore.reopen, fresh, trustedRoot, latestRoot, Nat.mod_one, ofBytes]
  have e4 : LightClient.bootstrap env (clientConfig (headerRoot env.H v.header.beacon)) now' prior
      ⟨v.header.beacon, committeeOf v.currentSyncCommittee, v.branch.1⟩ =
      .ok { prior with store := ⟨v.header.beacon, committeeOf v.currentSyncCommittee, none, v.header.beacon, 0, 0⟩ } := by
    simp only [LightClient.bootstrap, clientConfig, hown]
    rw [if_neg (by omega), if_neg (by simp), if_neg (by simp), if_neg (by simp)]
  simp only [Lives, run, e1, e2, e3]
  simp only [step, e4, LightClient.processAll]

/-- The epoch of summaries is not part of what is proved. So one peer can send summaries, with a proof that the light client
accepts, for the last epoch that the database can hold (or any summaries, before the light client runs). From then on the node
stores no other summaries that peers send, also after restarts, and gives these whichever epoch it is asked for. -/
theorem C93_frozen_violated (env : Env) (s : BeaconNode.State) (now : Nat) (f : Fork) (x : Summaries) (hnow : 864000 ≤ now)
    (hepoch : x.epoch.toNat = 2 ^ 63 - 1)
    (hproof : ∀ root, (view s.client).stateRoot = some root →
      verifyMerkleProof env.H (summariesRoot env.H x.summaries.1) x.proof.1 6 27 root = true)
    (hnew : BeaconNode.get env s (.historicalSummaries x.epoch) = none) (more : List Ev) (hno : Unattended more) (s' : BeaconNode.State)
    (h : run env s (.arrived (.historicalSummaries x.epoch) (BeaconFormat.value (.summaries f x)) now ::
      .keep s.held.length (fun _ => true) :: more) = some s') (epoch : UInt64) (he : epoch.toNat < 2 ^ 63) :
    BeaconNode.get env s' (.historicalSummaries epoch) = some (BeaconFormat.value (.summaries f x)) := by
  have hval : validate env net now (oracleOf s.client) (.historicalSummaries x.epoch) (BeaconFormat.value (.summaries f x)) = .valid :=
    (C55_accepts env net now _ _ _ hnow).mpr ⟨.summaries f x, trivial, rfl, rfl, hproof⟩
  have hdec := decSum_value env.H f x
  generalize BeaconFormat.value (.summaries f x) = bs at *
  have hlook : BeaconStore.lookupSummaries s.store x.epoch = .ok none := by
    simp only [BeaconNode.get, storeKey, BeaconStore.get] at hnew
    split at hnew
    · next r hr => rw [hr, hnew]
    · next e hr =>
      simp only [BeaconStore.lookupSummaries, BeaconStore.sqlInt] at hr
      rw [if_pos (by omega)] at hr
      split at hr
      · next h => cases h
      · split at hr <;> cases hr
  have e1 : step env s (.arrived (.historicalSummaries x.epoch) bs now) =
      some { s with held := s.held ++ [(.historicalSummaries x.epoch, bs)] } := by
    simp only [step, hval]
  have e2 : ∃ s2, step env { s with held := s.held ++ [(.historicalSummaries x.epoch, bs)] } (.keep s.held.length fun _ => true) = some s2 ∧
      s2.store.summaries = some (2 ^ 63 - 1, bs) := by
    refine ⟨_, by simp only [step, List.getElem?_concat_length]; rfl, ?_⟩
    simp only [putIf, if_true, storeKey, BeaconStore.shouldWeStore, hlook, BeaconStore.put, hdec, BeaconStore.sqlInt, hepoch]
    rfl
  obtain ⟨s2, e2, hs2⟩ := e2
  simp only [run, e1, e2] at h
  have key : ∀ (more : List Ev) (a b : BeaconNode.State), Unattended more → a.store.summaries = some (2 ^ 63 - 1, bs) →
      run env a more = some b → b.store.summaries = some (2 ^ 63 - 1, bs) := by
    intro more
    induction more with
    | nil => intro a b _ ha hr; cases hr; exact ha
    | cons e more ih =>
      intro a b hu ha hr
      simp only [run] at hr
      split at hr
      · next c hc =>
        refine ih c b (fun ask key bs w hm => hu ask key bs w (List.mem_cons_of_mem _ hm)) ?_ hr
        rcases step_summaries (fun ask key bs w he => hu ask key bs w (he ▸ List.mem_cons_self)) hc with he | ⟨n, _, -, hn, hlt⟩
        · exact he.trans ha
        · have := hlt _ ha
          simp only at this
          omega
      · cases hr
  have := key more s2 s' hno hs2 h
  simp only [BeaconNode.get, storeKey, BeaconStore.get, BeaconStore.lookupSummaries, BeaconStore.sqlInt, he, this, if_true]
  rw [if_pos (by omega)]

/-- Which periods a range of updates is for is not checked: one peer can have updates that the light client accepts stored for
any other periods of which the node has none, and the node then gives them for those. -/
theorem C93_periods_violated (hl : Late es) (h : Lives env given tie es s) (now : Nat) (hnow : 864000 ≤ now) (start other count : UInt64)
    (l : BList (Versioned Update) 128)
    (hok : BeaconRules.Acceptable env mainnet now (view s.client) (.updatesByRange start count) (.updates l))
    (hrange : other.toNat + count.toNat ≤ 2 ^ 63) (hnew : Lacks env s (.updatesByRange other count)) :
    ∃ s', run env s [.arrived (.updatesByRange other count) (BeaconFormat.value (.updates l)) now, .keep s.held.length (fun _ => true)] =
        some s' ∧ BeaconNode.get env s' (.updatesByRange other count) = some (BeaconFormat.value (.updates l)) :=
  C93_keeps hl h (.updatesByRange other count) (.updates l) now hnow trivial hok hnew hrange

/-! ## A node that meets the hypotheses -/

namespace BeaconNodeExample

def H (a b : Id) : Id := 3 * a + 5 * b + 7
def toy : Env := ⟨H, fun _ => true, fun _ _ _ => true⟩

/-- The roots above the first leaf when all others are zero. -/
def left (a : Id) : Nat → Id
  | 0 => a
  | d + 1 => H (left a d) (zeroHash H d)

theorem first_root (a : Id) : ∀ d, treeRoot H d (fun i => [a].getD i 0) = left a d
  | 0 => rfl
  | d + 1 => by
    have hz : (fun i => [a].getD (2 ^ d + i) 0) = fun _ => 0 := by
      funext i
      have : 0 < 2 ^ d := Nat.two_pow_pos d
      rw [show 2 ^ d + i = (2 ^ d + i - 1) + 1 by omega]
      rfl
    rw [treeRoot, first_root a d, hz, treeRoot_zero]; rfl

theorem zero_pairs : ∀ d, ∀ p ∈ treePairs H d (fun _ => 0), ∃ k < d, p = (zeroHash H k, zeroHash H k)
  | 0, p, hp => by cases hp
  | d + 1, p, hp => by
    simp only [treePairs, List.mem_cons, List.mem_append, or_self, treeRoot_zero] at hp
    rcases hp with hp | hp
    · exact ⟨d, by omega, hp⟩
    · obtain ⟨k, hk, h⟩ := zero_pairs d p hp
      exact ⟨k, by omega, h⟩

theorem first_pairs (a : Id) : ∀ d, ∀ p ∈ treePairs H d (fun i => [a].getD i 0),
    ∃ k < d, p = (left a k, zeroHash H k) ∨ p = (zeroHash H k, zeroHash H k)
  | 0, p, hp => by cases hp
  | d + 1, p, hp => by
    have hz : (fun i => [a].getD (2 ^ d + i) 0) = fun _ => 0 := by
      funext i
      have : 0 < 2 ^ d := Nat.two_pow_pos d
      rw [show 2 ^ d + i = (2 ^ d + i - 1) + 1 by omega]
      rfl
    simp only [treePairs, List.mem_cons, List.mem_append, first_root, hz, treeRoot_zero] at hp
    rcases hp with hp | hp | hp
    · exact ⟨d, by omega, .inl hp⟩
    · obtain ⟨k, hk, h⟩ := first_pairs a d p hp
      exact ⟨k, by omega, h⟩
    · obtain ⟨k, hk, h⟩ := zero_pairs d p hp
      exact ⟨k, by omega, .inr h⟩

/-- One period has passed. -/
def one : Summary := ⟨1001, 2002⟩
def sums : BList Summary 16777216 := ⟨[one], by decide⟩
def sumsRoot : Id := H (left (H 1001 2002) 24) (HeaderValidator.leNode 1)
def committee : LightClient.Committee := ⟨[[1]], [2]⟩
def comRoot : Id := H (left (LightClient.pubkeyRoot H [1]) 9) (LightClient.pubkeyRoot H [2])

theorem sumsRoot_eq : summariesRoot H sums.1 = sumsRoot := by
  simp only [summariesRoot, sums, List.map_cons, List.map_nil, listRoot, first_root]; rfl

theorem comRoot_eq : LightClient.committeeRoot H committee = comRoot := by
  simp only [LightClient.committeeRoot, committee, List.map_cons, List.map_nil, listRoot, first_root]; rfl

/-- The state: the summaries are leaf 27, the committee is leaf 22. -/
def leaves : Nat → Id
  | 27 => sumsRoot
  | 22 => comRoot
  | i => BitVec.ofNat 256 (i + 7000)

def sibling (index k : Nat) : Id :=
  treeRoot H k fun i => leaves ((if index / 2 ^ k % 2 = 1 then index / 2 ^ k - 1 else index / 2 ^ k + 1) * 2 ^ k + i)
def branch (index : Nat) : List Id := (List.range 6).map (sibling index)

def header : Header := ⟨8192000, 1, 2, treeRoot H 6 leaves, 4⟩
def start : LightClient.Bootstrap := ⟨header, committee, branch 22⟩
def root : Id := headerRoot H header
def x : Summaries := ⟨256000, sums, ⟨branch 27, rfl⟩⟩
def client : Client := ⟨⟨header, committee, none, header, 0, 0⟩, none, none, none, none⟩

theorem proved : verifyMerkleProof H sumsRoot (branch 27) 6 27 header.stateRoot = true := by decide +kernel
theorem begins : verifyMerkleProof H comRoot (branch 22) 6 22 header.stateRoot = true := by decide +kernel

def bytes : Bytes := BeaconFormat.value (.summaries .electra x)

/-- The light client starts from the configured root; a peer sends the summaries; they are stored. -/
def events : List Ev :=
  [.started client 8192100 start [], .arrived (.historicalSummaries 256000) bytes 8192100, .keep 0 (fun _ => true)]

def first : BeaconNode.State := ⟨BeaconStore.init, some client, root, []⟩

theorem first_lives : Lives toy (some root) 0 [.started client 8192100 start []] first := by
  have hb : LightClient.bootstrap toy (clientConfig root) 8192100 client start = .ok client := by
    have : LightClient.currentCommitteeProofValid toy header committee (branch 22) = true := by
      simp only [LightClient.currentCommitteeProofValid, LightClient.proofValid, toy, comRoot_eq, begins]
    simp only [LightClient.bootstrap, start, this]
    rw [if_neg (by decide), if_neg (by simp [clientConfig]), if_neg (by simp [clientConfig, root, toy]), if_neg (by simp)]
    rfl
  simp only [Lives, run, fresh, trustedRoot, step, hb, LightClient.processAll]
  rfl

theorem late : Late events := by
  intro key bs now hm
  simp only [events, List.mem_cons, List.not_mem_nil, or_false] at hm
  rcases hm with h | h | h
  · cases h
  · cases h; decide
  · cases h

theorem acceptable : BeaconRules.Acceptable toy mainnet 8192100 (view first.client) (.historicalSummaries 256000) (.summaries .electra x) := by
  refine ⟨rfl, fun r hr => ?_⟩
  have hr : header.stateRoot = r := Option.some.inj hr
  rw [← hr]
  show verifyMerkleProof H (summariesRoot H sums.1) (branch 27) 6 27 header.stateRoot = true
  rw [sumsRoot_eq]; exact proved

theorem stored : ∃ s, Lives toy (some root) 0 events s ∧ BeaconNode.get toy s (.historicalSummaries 256000) = some bytes := by
  obtain ⟨s, h1, h2⟩ := C93_keeps (es := [.started client 8192100 start []]) (by intro k b n h; simp at h) first_lives
    (.historicalSummaries 256000) (.summaries .electra x) 8192100 (by decide) trivial acceptable rfl (by simp [Fits])
  refine ⟨s, ?_, h2⟩
  rw [Lives, show events = [.started client 8192100 start []] ++ [.arrived (.historicalSummaries 256000) bytes 8192100,
    .keep 0 (fun _ => true)] from rfl, run_append, show run toy _ _ = some first from first_lives,
    Option.bind_some, bytes]
  rw [show first.held.length = 0 from rfl] at h1
  exact h1

def chain : Chain := ⟨fun h => h = header, fun _ => committee⟩

/-- Where content came from. -/
theorem came (s : BeaconNode.State) (key : ContentKey.Beacon) (v : Value) (h : AcceptedIn toy (some root) 0 events s key v) :
    s = first ∧ key = .historicalSummaries 256000 ∧ v = .summaries .electra x := by
  obtain ⟨pre, now, post, he, hlive, hb, -⟩ := h
  match pre, he with
  | [], he => cases he
  | [e], he =>
    simp only [events, List.cons_append, List.nil_append, List.cons.injEq, Ev.arrived.injEq] at he
    obtain ⟨rfl, ⟨rfl, hv, -⟩, -⟩ := he
    refine ⟨Option.some.inj (hlive.symm.trans first_lives), rfl, ?_⟩
    cases v <;> first | exact hb.elim | skip
    next f y =>
    have h1 := decodeSummaries_value f y
    rw [← hv, bytes, decodeSummaries_value] at h1
    cases h1
    rfl
  | [e, e'], he => simp [events] at he
  | e :: e' :: e'' :: pre, he =>
    have := congrArg List.length he
    simp [events] at this

theorem not_operated (key : ContentKey.Beacon) (v : Value) : ¬ Operated events key v := by
  rintro ⟨-, ask, w, hm⟩
  simp [events] at hm

theorem assumed : Assumed toy (some root) 0 chain events where
  messages m hm := by simp [events, messages] at hm
  committees b hb _ _ := by simp [events, starts] at hb; subst hb; rfl
  roots b hb _ := by simp [events, starts] at hb; subst hb; rfl
  binding b hb k v hv _ := by
    rcases hv with ⟨s, h⟩ | h
    · cases (came s _ _ h).2.1
    · exact absurd h (not_operated _ _)
  operator k v h := absurd h (not_operated _ _)
  early s k v h _ := by cases (came s _ _ h).2.1

/-- The pairs that are hashed for the list. -/
def pairs : List (Id × Id) :=
  (left (H 1001 2002) 24, HeaderValidator.leNode 1) :: (1001, 2002) ::
    ((List.range 24).map (fun k => (left (H 1001 2002) k, zeroHash H k)) ++ (List.range 24).map (fun k => (zeroHash H k, zeroHash H k)))

theorem pairs_all (p : Id × Id) (hp : p ∈ summariesPairs H sums.1) : p ∈ pairs := by
  simp only [summariesPairs, sums, List.map_cons, List.map_nil, List.mem_cons, List.mem_append, List.not_mem_nil, or_false, listRoot,
    first_root] at hp
  simp only [pairs, List.mem_cons, List.mem_append, List.mem_map, List.mem_range]
  rcases hp with h | h | h
  · exact .inl h
  · obtain ⟨k, hk, h | h⟩ := first_pairs _ _ p h
    · exact .inr (.inr (.inl ⟨k, hk, h.symm⟩))
    · exact .inr (.inr (.inr ⟨k, hk, h.symm⟩))
  · exact .inr (.inl h)

theorem no_collisions : ¬ CollisionBetween H (summariesPairs H sums.1) (summariesPairs H sums.1) := by
  rintro ⟨p, hp, q, hq, hne, he⟩
  have : ∀ p ∈ pairs, ∀ q ∈ pairs, H p.1 p.2 = H q.1 q.2 → p = q := by decide +kernel
  exact hne (this p (pairs_all p hp) q (pairs_all q hq) he)

theorem no_collisions_state : ¬ CollisionBetween H (branchPairs H (summariesRoot H sums.1) (branch 27) 27) (treePairs H 6 leaves) := by
  rw [sumsRoot_eq]
  rintro ⟨p, hp, q, hq, hne, he⟩
  have : ∀ p ∈ branchPairs H sumsRoot (branch 27) 27, ∀ q ∈ treePairs H 6 leaves, H p.1 p.2 = H q.1 q.2 → p = q := by decide +kernel
  exact hne (this p hp q hq he)

/-- So the history network of this node has the summary. -/
example (key : ContentKey.Legacy) (content : Bytes) (m : HistoryNode.Moment) (s : BeaconNode.State) (h : Lives toy (some root) 0 events s)
    (hm : m.source = summariesFor toy s) : HistoryNodes.SummariesTrue [.arrived key content m] [⟨1001, 2002⟩] := by
  refine C93_history chain late assumed (fun k v => not_operated _ _) (fun s' k v h => by rw [(came s' _ _ h).1]; simp [first])
    [one] (fun _ => leaves) (fun _ => sums) ?_ ?_ _ ?_
  · rintro h rfl
    exact ⟨rfl, by rw [show toy.H = H from rfl, sumsRoot_eq]; rfl, List.prefix_refl _⟩
  · intro s' k f y h hacc _
    cases (came s' _ _ hacc).2.2
    exact ⟨no_collisions, no_collisions_state⟩
  · intro f hf
    simp only [HistoryNodes.sources, List.filterMap_cons, List.filterMap_nil, List.mem_singleton] at hf
    exact ⟨events, [], s, by simp, h, hf.trans hm⟩

/-- The next process has the same summaries: it goes on having some. -/
example : ∃ s s', Lives toy (some root) 0 events s ∧ run toy s [.restart none 0, .prune 9000000] = some s' ∧
    ∃ bs, BeaconNode.get toy s' (.historicalSummaries 200000) = some bs := by
  obtain ⟨s, h1, h2⟩ := stored
  obtain ⟨s', h3⟩ := C93_lives toy (some root) 0 (events ++ [.restart none 0, .prune 9000000]) (by
    intro k b n hm
    rcases List.mem_append.mp hm with hm | hm
    · exact late _ _ _ hm
    · simp at hm)
  rw [Lives, run_append, show run toy _ _ = some s from h1] at h3
  refine ⟨s, s', h1, h3, ?_⟩
  refine C93_summaries_kept toy s s' _ (by intro a b c d hm; simp at hm) h3 200000 ?_
  obtain ⟨e1, n, e2, e3⟩ := (get_summaries toy s 256000 bytes).mp h2
  exact ⟨bytes, (get_summaries toy s 200000 bytes).mpr ⟨by decide, n, e2, Nat.le_trans (by decide) e3⟩⟩

/-- Someone can make a header and a committee with a proof. -/
example : ∃ v : Bootstrap .electra, 8192100 ≤ v.header.beacon.slot.toNat + 864000 ∧ v.header.beacon.slot.toNat < 2 ^ 63 ∧
    LightClient.currentCommitteeProofValid toy v.header.beacon (committeeOf v.currentSyncCommittee) v.branch.1 = true := by
  refine ⟨⟨⟨⟨8192000, 6, 6, merkleRootFromBranch H (LightClient.committeeRoot H (committeeOf
      ⟨⟨List.replicate 512 ⟨List.replicate 48 1, by decide⟩, List.length_replicate⟩, ⟨List.replicate 48 1, by decide⟩⟩))
        [1, 2, 3, 4, 5, 6] 22, 6⟩, BeaconValidatorExample.exec⟩, ⟨⟨List.replicate 512 ⟨List.replicate 48 1, by decide⟩,
          List.length_replicate⟩, ⟨List.replicate 48 1, by decide⟩⟩, ⟨[1, 2, 3, 4, 5, 6], by decide⟩⟩, by simp, by simp, ?_⟩
  simp only [LightClient.currentCommitteeProofValid, LightClient.proofValid, verifyMerkleProof]
  rw [if_pos (by decide)]
  exact beq_self_eq_true _

/-- The same summaries with the last epoch: they come with a proof. -/
example : ∀ r, (view first.client).stateRoot = some r →
    verifyMerkleProof toy.H (summariesRoot toy.H ({ x with epoch := 2 ^ 63 - 1 } : Summaries).summaries.1) x.proof.1 6 27 r = true :=
  acceptable.2

end BeaconNodeExample

end Verif.Props
