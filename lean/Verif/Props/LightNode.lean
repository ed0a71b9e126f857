import Verif.Lemmas.LightNodePortal
import Verif.Props.BeaconValue
import Verif.Lemmas.ExceptEq

/-! # C84: the life of a light client -/

namespace Verif.Props
open Verif.LightClient Verif.LightNode LightLife

variable {σ : Type}

/-! ## The light client of the beacon network -/

/-- The portal network as RPC never says that a checkpoint is too old. -/
theorem C84_plain (w : Portal σ) : Plain (portalRpc w) := portal_plain w

/-- What the client of the beacon network believes goes back to the trusted root by verified messages alone: after a
start that succeeds, and after any number of turns of its thread, whatever the network answers and whatever other
services exist. One thread runs. -/
theorem C84_anchor (env : Env) (web : Web σ) (rpc : Rpc σ) (hr : Plain rpc) (root : Id) (file : Option Bytes) (s s' : σ)
    (n : Node σ) (k : Nat) (h : beaconSync env web rpc root file s = ((none, some n, k), s')) (j : Nat) (t : σ) :
    (n.turns env j t).1.1.threads = 1 ∧ (n.turns env j t).1.1.checkpoint = root ∧
    Anchored env (mainnetConfig root) (n.turns env j t).1.1.client := by
  obtain ⟨m, t0, -, -, -, hm, m1, m2, m3, -, n1, n2, n3, n4⟩ := beaconSync_ok hr root file s s' n k h
  have hcfg : m.settings.config m.checkpoint = mainnetConfig root := by rw [m1, m3]; rfl
  have hcfg' : n.settings.config n.checkpoint = mainnetConfig root := by rw [n1, n3]; rfl
  have ha : Anchored env (mainnetConfig root) n.client := by
    have := start_keeps (by rw [m2]; exact hr) (by rw [m1]; rfl) (by rw [m1]; rfl) hm
      (fun _ c => Anchored env (mainnetConfig root) c) (by rw [hcfg]; exact anchored_keeps env _ _) (by
        intro s0 b now c0 _ _ hb
        rw [hcfg] at hb
        obtain ⟨-, h2, h3, h4⟩ := bootstrap_ok _ _ _ _ _ _ hb
        exact ⟨b, m.client, h2, h3, h4 ▸ .refl⟩)
    exact this
  obtain ⟨-, -, t3, t4⟩ := turns_fields (env := env) n j t
  refine ⟨t4.trans n4, t3.trans n3, ?_⟩
  exact Node.turns_keeps (P := fun _ c => Anchored env (mainnetConfig root) c)
    (by rw [hcfg']; exact anchored_keeps env _ _) j t ha

/-- With honest committees the client is on the chain of the trusted root, and the checkpoint it saves when it is shut
down is a header of that chain at the start of an epoch. -/
theorem C84_follows (env : Env) (web : Web σ) (rpc : Rpc σ) (hr : Plain rpc) (root : Id) (file : Option Bytes) (s s' : σ)
    (n : Node σ) (k : Nat) (ch : Chain) (ht : Trusted env ch rpc root)
    (h : beaconSync env web rpc root file s = ((none, some n, k), s')) (j : Nat) (t : σ) :
    Follows ch (n.turns env j t).1.1.client ∧ GoodCheckpoint env ch (n.turns env j t).1.1.client := by
  obtain ⟨m, t0, htr, -, -, hm, m1, m2, m3, -, n1, n2, n3, n4⟩ := beaconSync_ok hr root file s s' n k h
  have hcfg : m.settings.config m.checkpoint = mainnetConfig root := by rw [m1, m3]; rfl
  have hcfg' : n.settings.config n.checkpoint = mainnetConfig root := by rw [n1, n3]; rfl
  have hg := tries_checkpoint hr ht htr
  have ha : Follows ch n.client ∧ GoodCheckpoint env ch n.client := by
    refine start_keeps (by rw [m2]; exact hr) (by rw [m1]; rfl) (by rw [m1]; rfl) hm
      (fun _ c => Follows ch c ∧ GoodCheckpoint env ch c) (by rw [hcfg, m2]; exact follows_keeps ht) ?_
    intro s0 b now c0 hb _ hc
    rw [hcfg] at hc
    rw [m2, m3] at hb
    exact bootstrap_follows ht s0 b now m.client c0 hb hc hg
  exact Node.turns_keeps (P := fun _ c => Follows ch c ∧ GoodCheckpoint env ch c)
    (by rw [hcfg', n2]; exact follows_keeps ht) j t ha

/-- Neither the port of a server nor checkpoint services have an influence on it: only its pauses do. -/
theorem C84_no_services (env : Env) (web web' : Web σ) (rpc : Rpc σ) (hr : Plain rpc) (hs : web.sleep = web'.sleep)
    (root : Id) (file file' : Option Bytes) (s : σ) :
    beaconSync env web rpc root file s = beaconSync env web' rpc root file' s := by
  rw [beaconSync_eq, beaconSync_eq]
  have key : ∀ k (n : Node σ) (s : σ), Plain n.rpc → n.settings.strict = false → n.settings.rpcPort = none →
      attempts env web k n s = attempts env web' k n s := by
    intro k
    induction k with
    | zero => intros; rfl
    | succ k ih =>
      intro n s h1 h2 h3
      have e : n.start env web s = n.start env web' s := by rw [n.start_plain h1 h2 h3, n.start_plain h1 h2 h3]
      obtain ⟨f1, f2, -⟩ := n.start_plain_fields (env := env) (web := web') h1 h2 h3 s
      simp only [attempts, e, hs]
      rw [ih (n.start env web' s).1.2 _ (by rw [f2]; exact h1) (by rw [f1]; exact h2) (by rw [f1]; exact h3)]
  rw [key 10 (freshNode rpc root) s hr rfl rfl]

/-- It starts at most ten times, ten seconds after each failure, always from the trusted root, and stops with the first
success or panic; it fails exactly when ten starts have failed. -/
theorem C84_attempts (env : Env) (web : Web σ) (rpc : Rpc σ) (hr : Plain rpc) (root : Id) (file : Option Bytes) (s : σ) :
    ∃ j n t, Tries env web (freshNode rpc root) s j n t ∧ n.checkpoint = root ∧ n.rpc = rpc ∧ n.threads = 0 ∧
      ((j = 10 ∧ beaconSync env web rpc root file s = ((some .other, some n, 10), t)) ∨
       (j < 10 ∧ ∃ m t', n.start env web t = ((none, m), t') ∧
          beaconSync env web rpc root file s = ((none, some m, j + 1), t')) ∨
       (j < 10 ∧ ∃ m t', n.start env web t = ((some .abort, m), t') ∧
          beaconSync env web rpc root file s = ((some .abort, some m, j + 1), t'))) := by
  obtain ⟨j, n, t, h1, h2⟩ := attempts_spec (env := env) (web := web) 10 (freshNode rpc root) s
  obtain ⟨-, g2, g3, g4⟩ := tries_fields hr root h1
  refine ⟨j, n, t, h1, g3, g2, g4, ?_⟩
  rw [beaconSync_eq]
  rcases h2 with ⟨hj, e⟩ | ⟨hj, m', t', hm, e⟩ | ⟨hj, m', t', hm, e⟩
  · exact Or.inl ⟨hj, by rw [e]⟩
  · exact Or.inr (Or.inl ⟨hj, m', t', hm, by rw [e]⟩)
  · exact Or.inr (Or.inr ⟨hj, m', t', hm, by rw [e]⟩)

/-! ### What is asked for -/

/-- A synchronisation over the portal network asks for a part from the front of this list: the bootstrap of the
checkpoint, the update of each period from that of the bootstrap up to the one before the present, one by one, the
finality update, and the optimistic update of the present slot. When it succeeds it has asked for all of them. -/
theorem C84_requests (env : Env) (cfg : Config) (genesis : Nat) (w : Portal σ) (c : Client) (s : Asked σ) :
    ∃ ks first present slot, (LightNode.sync env cfg genesis (portalRpc w) c s).2.asked = s.asked ++ ks ∧ ks ≠ [] ∧
      ks <+: syncPlan cfg.checkpoint first present slot ∧
      ((LightNode.sync env cfg genesis (portalRpc w) c s).1.2 = none →
        ks = syncPlan cfg.checkpoint first present slot ∧
        ∃ bs b t0 t1 mid t2 t3, (w.lookup (.bootstrap cfg.checkpoint) s.world).1 = some bs ∧
          BeaconValue.Value.decode (.bootstrap cfg.checkpoint) bs = .ok (.bootstrap ⟨.electra, b⟩) ∧
          (LightNode.sync env cfg genesis (portalRpc w) c s).2.read = s.read ++ (t0 :: t1 :: mid ++ [t2, t3]) ∧
          first = b.header.beacon.slot.toNat / 8192 ∧ present = mainnetSlot t1 / 8192 ∧ slot = mainnetSlot t2) :=
  sync_asked genesis c s

/-- A turn asks for the finality update, the optimistic update of the present slot and, when the next sync committee is
not known, the update of the period of the finalized header. -/
theorem C84_turn_requests (env : Env) (cfg : Config) (w : Portal σ) (c : Client) (s : Asked σ) :
    ∃ ks slot period, (LightNode.advance env cfg (portalRpc w) c s).2.asked = s.asked ++ ks ∧ ks ≠ [] ∧
      ks <+: [ContentKey.Beacon.finalityUpdate 0, .optimisticUpdate (UInt64.ofNat slot), .updatesByRange period 1] ∧
      (3 ≤ ks.length → c.store.finalized.slot.toNat / 8192 ≤ period.toNat ∧
        period.toNat ≤ (LightNode.advance env cfg (portalRpc w) c s).1.1.store.finalized.slot.toNat / 8192) ∧
      ((LightNode.advance env cfg (portalRpc w) c s).1.2 = none → 2 ≤ ks.length ∧
        (∃ ts, (LightNode.advance env cfg (portalRpc w) c s).2.read = s.read ++ ts ∧ ∃ t ∈ ts, slot = mainnetSlot t) ∧
        ((LightNode.advance env cfg (portalRpc w) c s).1.1.store.next = none → ks.length = 3)) :=
  advance_asked c s

/-! ### Time -/

/-- The head is given exactly when it is at most ten slots behind the clock; it must not be ahead. -/
theorem C84_head_age (n : Node σ) (now slot : Nat) (hg : n.settings.genesisTime ≤ now)
    (hs : slot = (now - n.settings.genesisTime) / 12) :
    (n.header now = .ok n.client.store.optimistic ↔
      n.client.store.optimistic.slot.toNat ≤ slot ∧ slot ≤ n.client.store.optimistic.slot.toNat + 10) ∧
    (n.header now = .error .other ↔ n.client.store.optimistic.slot.toNat + 10 < slot) ∧
    (n.header now = .error .abort ↔ slot < n.client.store.optimistic.slot.toNat) := by
  subst hs
  generalize hk : (now - n.settings.genesisTime) / 12 = k
  have e : slotAt n.settings.genesisTime now = some k := by rw [slotAt, if_neg (by omega), hk]
  simp only [Node.header, e]
  split
  · refine ⟨⟨fun h => (nomatch h), fun h => by omega⟩, ⟨fun h => (nomatch h), fun h => by omega⟩, ⟨fun _ => by assumption, fun _ => rfl⟩⟩
  · split
    · refine ⟨⟨fun h => (nomatch h), fun h => by omega⟩, ⟨fun _ => by omega, fun _ => rfl⟩, ⟨fun h => (nomatch h), fun h => by omega⟩⟩
    · refine ⟨⟨fun h => by omega, fun h => rfl⟩, ⟨fun h => (nomatch h), fun h => by omega⟩, ⟨fun h => (nomatch h), fun h => by omega⟩⟩

/-- Asking the client of the beacon network for its head never aborts, as long as the clock does not go back. -/
theorem C84_head (env : Env) (web : Web σ) (rpc : Rpc σ) (hr : Plain rpc) (root : Id) (file : Option Bytes) (s s' : σ)
    (n : Node σ) (k : Nat) (time : σ → Nat) (hs : Steady rpc time)
    (h : beaconSync env web rpc root file s = ((none, some n, k), s')) (j now : Nat)
    (hnow : time (n.turns env j s').2 ≤ now) : (n.turns env j s').1.1.header now ≠ .error .abort := by
  obtain ⟨m, t0, htr, -, -, hm, m1, m2, m3, -, n1, n2, n3, n4⟩ := beaconSync_ok hr root file s s' n k h
  have hgen : m.settings.genesisTime = beaconGenesis := by rw [m1]; rfl
  have ha : Timely time s' n.client := by
    refine start_keeps (by rw [m2]; exact hr) (by rw [m1]; rfl) (by rw [m1]; rfl) hm (Timely time)
      (by rw [m2]; exact timely_keeps env _ hs) ?_
    intro s0 b now c0 _ ht hc
    rw [hgen] at ht
    obtain ⟨h1, -, -, rfl⟩ := bootstrap_ok _ _ _ _ _ _ hc
    obtain ⟨g1, g2⟩ := slotAt_some ht
    rw [m2] at g1 g2 ⊢
    have g3 := hs.shown (rpc.bootstrap m.checkpoint s0).2
    refine ⟨Nat.le_trans g1 g3, Nat.le_trans h1 ?_⟩
    rw [g2]
    exact Nat.div_le_div_right (Nat.sub_le_sub_right g3 _)
  have hb := Node.turns_keeps (P := Timely time) (by rw [n2]; exact timely_keeps env _ hs) j s' ha
  obtain ⟨t1, -⟩ := turns_fields (env := env) n j s'
  generalize n.turns env j s' = x at hb t1 hnow
  have hg : x.1.1.settings.genesisTime = beaconGenesis := by rw [t1, n1]; rfl
  obtain ⟨hb1, hb2⟩ := hb
  have := (C84_head_age x.1.1 now _ (by rw [hg]; exact Nat.le_trans hb1 hnow) rfl).2.2
  intro hab
  have hlt := this.mp hab
  rw [hg] at hlt
  have := Nat.div_le_div_right (c := 12) (Nat.sub_le_sub_right hnow beaconGenesis)
  omega

/-- The thread does not die: no message of honest committees and no failed request ends it.
Missing: answers on which the client aborts, which `Unfailing` excludes. -/
theorem C84_alive_partial (env : Env) (web : Web σ) (rpc : Rpc σ) (hr : Plain rpc) (root : Id) (file : Option Bytes) (s s' : σ)
    (n : Node σ) (k : Nat) (ch : Chain) (ht : Trusted env ch rpc root) (hu : Unfailing rpc)
    (hk : ∀ p, ∀ key ∈ (ch.committee p).pubkeys, env.keyOk key = true)
    (h : beaconSync env web rpc root file s = ((none, some n, k), s')) (j : Nat) (t : σ) :
    (n.turns env j t).1.2 = true := by
  have hf := C84_follows env web rpc hr root file s s' n k ch ht h 0 t
  obtain ⟨-, -, -, -, -, -, -, -, -, -, n1, n2, n3, -⟩ := beaconSync_ok hr root file s s' n k h
  exact turns_alive n (by rw [n2]; exact ht) (by rw [n2]; exact hu) hk (by rw [n1, n3]; rfl) j t hf

/-- The pause between two turns ends eight seconds into the next slot.
Missing: clocks that move on between the two readings, see `C84_pause_violated`. -/
theorem C84_pause_partial (genesis now : Nat) (h : genesis ≤ now) :
    ∃ d, untilNextUpdate genesis now now = some d ∧ 9 ≤ d ∧ d ≤ 20 ∧
      now + d = genesis + ((now - genesis) / 12 + 1) * 12 + 8 := by
  have e : slotAt genesis now = some ((now - genesis) / 12) := by rw [slotAt, if_neg (by omega)]
  simp only [untilNextUpdate, e]
  rw [if_neg (by omega)]
  exact ⟨_, rfl, by omega, by omega, by omega⟩

/-- The clock is read twice for the pause. If the next slot has begun in between, by a second or more, the thread
dies. -/
theorem C84_pause_violated (genesis now now' : Nat) (h : genesis ≤ now)
    (hl : genesis + ((now - genesis) / 12 + 1) * 12 < now') : untilNextUpdate genesis now now' = none := by
  have e : slotAt genesis now = some ((now - genesis) / 12) := by rw [slotAt, if_neg (by omega)]
  simp only [untilNextUpdate, e]
  rw [if_pos (by omega)]

/-! ## Where the checkpoint comes from -/

/-- The checkpoint is the one given to the builder, else that of the given configuration, else the one on disk, else the
default of the configuration, else the one that comes with the program; a file without exactly 32 bytes is as good as
none. Without a directory there is no client. -/
theorem C84_precedence (b : Builder) (st : Settings) (file : Option Bytes)
    (h : b.build = .ok st ∨ b.buildWithRpc = .ok st) :
    openDb st file =
      if (b.dataDir.or (b.config.bind (·.dataDir))).isNone then .error .other
      else .ok (((b.checkpoint.or (b.config.bind (·.checkpoint))).or (saved file)).getD
        (match b.config, b.network with
          | some c, _ => c.defaultCheckpoint
          | none, some n => builtIn n
          | none, none => 0)) := by
  have hst : ∃ base url, b.base = .ok base ∧ st = b.settings base url := by
    rcases h with h | h
    · simp only [Builder.build] at h
      split at h
      · cases h
      · next base hb =>
        split at h
        · cases h; exact ⟨base, _, hb, rfl⟩
        · cases h; exact ⟨base, _, hb, rfl⟩
        · cases h
    · simp only [Builder.buildWithRpc] at h
      split at h
      · cases h
      · next base hb => cases h; exact ⟨base, _, hb, rfl⟩
  obtain ⟨base, url, hb, rfl⟩ := hst
  have hdef : (b.settings base url).defaultCheckpoint = (match b.config, b.network with
          | some c, _ => c.defaultCheckpoint
          | none, some n => builtIn n
          | none, none => 0) := by
    simp only [Builder.settings]
    cases hc : b.config with
    | some c => rfl
    | none =>
      simp only [Builder.base, hc] at hb
      cases hn : b.network with
      | none => rw [hn] at hb; cases hb
      | some n => rw [hn] at hb; cases hb; cases n <;> rfl
  have hload : ∀ d, loadCheckpoint d file = (saved file).getD d := by
    intro d
    cases file with
    | none => rfl
    | some bs => simp only [loadCheckpoint, saved]; split <;> rfl
  simp only [openDb, hdef, hload]
  have hdir : (b.settings base url).dataDir = b.dataDir.or (b.config.bind (·.dataDir)) := by
    simp only [Builder.settings]
    cases b.dataDir <;> rfl
  have hcp : (b.settings base url).checkpoint = b.checkpoint.or (b.config.bind (·.checkpoint)) := by
    simp only [Builder.settings]
    cases b.checkpoint <;> rfl
  rw [hdir, hcp]
  cases b.dataDir.or (b.config.bind (·.dataDir)) with
  | none => rfl
  | some d =>
    simp only [Option.isNone_some, Bool.false_eq_true, if_false]
    cases b.checkpoint.or (b.config.bind (·.checkpoint)) with
    | none => simp
    | some c => simp

/-- With a network the client verifies with the constants of that network, whatever configuration is given besides; both
ways to build agree but for the URL. -/
theorem C84_network (b : Builder) (st : Settings) (root : Id) (hn : b.network = some .mainnet)
    (h : b.build = .ok st ∨ b.buildWithRpc = .ok st) :
    st.config root = { mainnetConfig root with strictCheckpointAge := st.strict } ∧
    st.genesisTime = 1606824023 ∧ st.chainId = 1 ∧
    (st.strict = true ↔ b.strict = true ∨ ∃ c, b.config = some c ∧ c.strict = true) ∧
    (st.loadExternal = true ↔ b.loadExternal = true ∨ ∃ c, b.config = some c ∧ c.loadExternal = true) ∧
    ∃ st', b.buildWithRpc = .ok st' ∧ st = { st' with consensusRpc := st.consensusRpc } := by
  have hb : b.base = .ok LightNode.mainnet := by simp only [Builder.base, hn]; rfl
  have hw : b.buildWithRpc = .ok (b.settings LightNode.mainnet []) := by simp only [Builder.buildWithRpc, hb]
  have hst : ∃ url, st = b.settings LightNode.mainnet url := by
    rcases h with h | h
    · simp only [Builder.build, hb] at h
      split at h
      · cases h; exact ⟨_, rfl⟩
      · cases h; exact ⟨_, rfl⟩
      · cases h
    · rw [hw] at h
      cases h
      exact ⟨_, rfl⟩
  obtain ⟨url, rfl⟩ := hst
  refine ⟨rfl, rfl, rfl, ?_, ?_, _, hw, rfl⟩
  · cases hc : b.config <;> simp [Builder.settings, hc]
  · cases hc : b.config <;> simp [Builder.settings, hc]

/-- Everything that the builder is told comes before the given configuration; the constants are those of the network, and
without a network those of the configuration. `build` takes the URL of the builder before that of the configuration. -/
theorem C84_built (b : Builder) (st : Settings) :
    (b.build = .ok st → Built b st ∧ b.consensusRpc.or (b.config.map (·.consensusRpc)) = some st.consensusRpc) ∧
    (b.buildWithRpc = .ok st → Built b st ∧ st.consensusRpc = []) := by
  have key : ∀ base url, b.base = .ok base → Built b (b.settings base url) := by
    intro base url hb
    refine ⟨?_, ?_, ?_, ?_, ?_, ?_, ?_, ?_⟩
    · simp only [Builder.settings]; cases b.rpcPort <;> rfl
    · simp only [Builder.settings]; cases b.dataDir <;> rfl
    · simp only [Builder.settings]; cases b.checkpoint <;> rfl
    · simp only [Builder.settings]; cases b.fallback <;> rfl
    · cases hc : b.config <;> simp [Builder.settings, hc]
    · cases hc : b.config <;> simp [Builder.settings, hc]
    · intro n hn
      simp only [Builder.base, hn, Except.ok.injEq] at hb
      subst hb
      cases n <;> exact ⟨rfl, rfl, fun _ => rfl⟩
    · intro c hn hc
      simp only [Builder.base, hn, hc, Except.ok.injEq] at hb
      subst hb
      exact ⟨rfl, rfl, fun _ => rfl⟩
  constructor
  · intro h
    unfold Builder.build at h
    cases hb : b.base with
    | error e => rw [hb] at h; cases h
    | ok base =>
      rw [hb] at h
      cases hu : b.consensusRpc with
      | some url =>
        simp only [hu, Except.ok.injEq] at h
        subst h
        exact ⟨key base url hb, rfl⟩
      | none =>
        cases hc : b.config with
        | none => simp only [hu, hc] at h; cases h
        | some c =>
          simp only [hu, hc, Except.ok.injEq] at h
          subst h
          exact ⟨key base _ hb, rfl⟩
  · intro h
    unfold Builder.buildWithRpc at h
    cases hb : b.base with
    | error e => rw [hb] at h; cases h
    | ok base =>
      rw [hb] at h
      simp only [Except.ok.injEq] at h
      subst h
      exact ⟨key base _ hb, rfl⟩

/-- A synchronisation begins only with an RPC of the chain of the settings; with another one nothing is asked of it and
nothing changes. -/
theorem C84_chain_id (env : Env) (n : Node σ) (s : σ) (h : (n.rpc.chainId s).1 ≠ some n.settings.chainId) :
    n.sync env s = ((some .other, n), (n.rpc.chainId s).2) := by
  unfold Node.sync
  dsimp only
  cases hi : (n.rpc.chainId s).1 with
  | none => rfl
  | some id =>
    rw [hi] at h
    dsimp only
    rw [if_pos (fun he : id = n.settings.chainId => h (by rw [he]))]

/-! ## What the portal network answers -/

theorem find_ok (w : Portal σ) (k : ContentKey.Beacon) (s : Asked σ) (v : BeaconValue.Value) :
    (w.find k s).1 = .ok v ↔ Found w k s v := by
  simp only [Portal.find, Found]
  cases hl : (w.lookup k s.world).1 with
  | none => simp
  | some bs =>
    have hac := C54_accepts k bs v
    simp only [Option.some.injEq, ← hac]
    cases hd : BeaconValue.Value.decode k bs with
    | error e => cases e <;> simp
    | ok v' => simp

theorem find_abort (w : Portal σ) (k : ContentKey.Beacon) (s : Asked σ) (hk : ∀ a c, k ≠ .updatesByRange a c)
    (hk' : ∀ e, k ≠ .historicalSummaries e) :
    (w.find k s).1 = .error .abort ↔ ∃ bs, (w.lookup k s.world).1 = some bs ∧ bs.length < 4 := by
  simp only [Portal.find]
  cases hl : (w.lookup k s.world).1 with
  | none => simp
  | some bs =>
    have hab := C54_abort k bs hk
    simp only [Option.some.injEq, exists_eq_left']
    rw [← and_iff_left (a := bs.length < 4) hk', ← hab]
    cases hd : BeaconValue.Value.decode k bs with
    | error e => cases e <;> simp
    | ok v' => simp

theorem readAs_ok {α : Type} (of : BeaconValue.Value → Option α) (e : Except Fail BeaconValue.Value) (x : α) :
    readAs of e = .ok x ↔ ∃ v, e = .ok v ∧ of v = some x := by
  cases e with
  | error f => simp [readAs]
  | ok v => simp only [readAs]; cases h : of v <;> simp [h]

theorem readAs_abort {α : Type} (of : BeaconValue.Value → Option α) (e : Except Fail BeaconValue.Value) :
    readAs of e = .error .abort ↔ e = .error .abort := by
  cases e with
  | error f => simp [readAs]
  | ok v => simp only [readAs]; cases h : of v <;> simp [h]

/-- The client is given a bootstrap exactly when the lookup for the root found the format of one of the last fork: then it is
that one. Too little content ends the program. -/
theorem C84_bootstrap_answer (w : Portal σ) (root : Id) (s : Asked σ) (b : Bootstrap) :
    (((portalRpc w).bootstrap root s).1 = .ok b ↔ ∃ v : BeaconValue.Bootstrap .electra, Found w (.bootstrap root) s (.bootstrap ⟨.electra, v⟩) ∧
      b = ⟨v.header.beacon, ⟨v.currentSyncCommittee.pubkeys.1.map (·.1), v.currentSyncCommittee.aggregatePubkey.1⟩, v.branch.1⟩) ∧
    (((portalRpc w).bootstrap root s).1 = .error .abort ↔ ∃ bs, (w.lookup (.bootstrap root) s.world).1 = some bs ∧ bs.length < 4) := by
  simp only [portalRpc, readAs_abort, readAs_ok]
  refine ⟨?_, find_abort w _ s (by simp) (by simp)⟩
  constructor
  · rintro ⟨v, h1, h2⟩
    cases v <;> first | exact ((find_ok w _ s _).mp h1).1.elim | skip
    next v =>
    obtain ⟨f, v⟩ := v
    cases f <;> simp only [asBootstrap] at h2 <;> cases h2
    exact ⟨v, (find_ok w _ s _).mp h1, rfl⟩
  · rintro ⟨v, h1, rfl⟩
    exact ⟨_, (find_ok w _ s _).mpr h1, rfl⟩

/-- The same for finality updates, which are asked for with slot 0. -/
theorem C84_finality_answer (w : Portal σ) (s : Asked σ) (m : Msg) :
    (((portalRpc w).finality s).1 = .ok m ↔ ∃ u : BeaconValue.FinalityUpdate .electra,
      Found w (.finalityUpdate 0) s (.finality ⟨.electra, u⟩) ∧
      m = .finality u.attested.beacon (BeaconValidator.bitsOf u.aggregate.bits.1) u.aggregate.signature.1 u.signatureSlot.toNat
        u.finalized.beacon u.finalityBranch.1) ∧
    (((portalRpc w).finality s).1 = .error .abort ↔ ∃ bs, (w.lookup (.finalityUpdate 0) s.world).1 = some bs ∧ bs.length < 4) := by
  simp only [portalRpc, readAs_abort, readAs_ok]
  refine ⟨?_, find_abort w _ s (by simp) (by simp)⟩
  constructor
  · rintro ⟨v, h1, h2⟩
    cases v <;> first | exact ((find_ok w _ s _).mp h1).1.elim | skip
    next v =>
    obtain ⟨f, v⟩ := v
    cases f <;> simp only [asFinality] at h2 <;> cases h2
    exact ⟨v, (find_ok w _ s _).mp h1, rfl⟩
  · rintro ⟨v, h1, rfl⟩
    exact ⟨_, (find_ok w _ s _).mpr h1, rfl⟩

/-- The same for optimistic updates, which are asked for with the present slot. -/
theorem C84_optimistic_answer (w : Portal σ) (s : Asked σ) (m : Msg) (hnow : 1606824023 ≤ (w.clock s.world).1) :
    ((portalRpc w).optimistic s).1 = .ok m ↔ ∃ u : BeaconValue.OptimisticUpdate .electra,
      Found w (.optimisticUpdate (UInt64.ofNat (mainnetSlot (w.clock s.world).1))) ⟨(w.clock s.world).2, [], []⟩
        (.optimistic ⟨.electra, u⟩) ∧
      m = .optimistic u.attested.beacon (BeaconValidator.bitsOf u.aggregate.bits.1) u.aggregate.signature.1 u.signatureSlot.toNat := by
  have hs : slotAt beaconGenesis (w.clock s.world).1 = some (mainnetSlot (w.clock s.world).1) := by
    rw [slotAt, if_neg (by simp only [beaconGenesis]; omega)]; rfl
  simp only [portalRpc, Portal.tick, hs, readAs_ok]
  constructor
  · rintro ⟨v, h1, h2⟩
    cases v <;> first | exact ((find_ok w _ _ _).mp h1).1.elim | skip
    next v =>
    obtain ⟨f, v⟩ := v
    cases f <;> simp only [asOptimistic] at h2 <;> cases h2
    exact ⟨v, ((find_ok w _ _ _).mp h1 :), rfl⟩
  · rintro ⟨v, h1, rfl⟩
    exact ⟨_, (find_ok w _ _ _).mpr h1, rfl⟩

/-- The client is given updates exactly when the lookup for the range found the format of a list of updates which are all of the
last fork: then they are these, all of them and in this order. -/
theorem C84_updates_answer (w : Portal σ) (start count : UInt64) (s : Asked σ) (ms : List Msg) :
    ((portalRpc w).updates start count s).1 = .ok ms ↔
      ∃ (l : SszT.BList (BeaconValue.Versioned BeaconValue.Update) 128) (us : List (BeaconValue.Update .electra)),
        Found w (.updatesByRange start count) s (.updates l) ∧ l.1 = us.map (fun u => ⟨.electra, u⟩) ∧ ms = us.map messageOf := by
  have hel : ∀ (l : List (BeaconValue.Versioned BeaconValue.Update)) (ms : List Msg), electraUpdates l = some ms ↔
      ∃ us : List (BeaconValue.Update .electra), l = us.map (fun u => ⟨.electra, u⟩) ∧ ms = us.map messageOf := by
    intro l
    induction l with
    | nil =>
      intro ms
      simp only [electraUpdates, Option.some.injEq]
      constructor
      · rintro rfl; exact ⟨[], rfl, rfl⟩
      · rintro ⟨us, h1, h2⟩
        cases us with
        | nil => exact h2.symm
        | cons u us => cases h1
    | cons a l ih =>
      intro ms
      obtain ⟨f, u⟩ := a
      cases f
      case electra =>
        simp only [electraUpdates, Option.map_eq_some_iff]
        constructor
        · rintro ⟨ms', h1, rfl⟩
          obtain ⟨us, rfl, rfl⟩ := (ih ms').mp h1
          exact ⟨u :: us, rfl, rfl⟩
        · rintro ⟨us, h1, h2⟩
          cases us with
          | nil => cases h1
          | cons u' us =>
            obtain ⟨h1, h3⟩ := List.cons.inj h1
            cases h1
            exact ⟨us.map messageOf, (ih _).mpr ⟨us, h3, rfl⟩, h2.symm⟩
      all_goals
        simp only [electraUpdates]
        refine ⟨fun h => (nomatch h), ?_⟩
        rintro ⟨us, h1, -⟩
        cases us with
        | nil => cases h1
        | cons u' us => cases (List.cons.inj h1).1
  simp only [portalRpc, readAs_ok]
  constructor
  · rintro ⟨v, h1, h2⟩
    have hf := (find_ok w _ s _).mp h1
    cases v <;> first | exact hf.1.elim | skip
    next l =>
    obtain ⟨us, h3, rfl⟩ := (hel _ _).mp h2
    exact ⟨l, us, hf, h3, rfl⟩
  · rintro ⟨l, us, h1, h2, rfl⟩
    exact ⟨_, (find_ok w _ s _).mpr h1, (hel _ _).mpr ⟨us, h2, rfl⟩⟩

/-- The URL that comes with a network is not used: a client for a network alone cannot be built, the program aborts. -/
theorem C84_default_url_violated (b : Builder) (n : Network) (hn : b.network = some n) (hu : b.consensusRpc = none)
    (hc : b.config = none) : b.build = .error .abort := by
  simp only [Builder.build, Builder.base, hn, hu, hc]

/-- A checkpoint that was saved is the one a client opened without another starts from; when there was none to save, the
file is left as it was. -/
theorem C84_saved (c : Client) (file : Option Bytes) (st : Settings) (hd : st.dataDir.isSome = true)
    (hc : st.checkpoint = none) :
    openDb st (shutdown c file) = match c.lastCheckpoint with
      | some root => .ok root
      | none => openDb st file := by
  obtain ⟨d, hd⟩ := Option.isSome_iff_exists.mp hd
  simp only [openDb, hd, hc, Option.getD_none, shutdown]
  cases c.lastCheckpoint with
  | none => rfl
  | some root =>
    simp only [saveCheckpoint, loadCheckpoint]
    rw [if_pos (Id.bytes_length root), Id.fromBe_bytes]
    simp

/-- A file that was cut short, when the program was killed while it wrote, is not taken for a checkpoint. -/
theorem C84_torn (root : Id) (k : Nat) (hk : k < 32) (st : Settings) (hd : st.dataDir.isSome = true)
    (hc : st.checkpoint = none) :
    openDb st (some ((Id.bytes root).take k)) = .ok st.defaultCheckpoint := by
  obtain ⟨d, hd⟩ := Option.isSome_iff_exists.mp hd
  have hl : ((Id.bytes root).take k).length ≠ 32 := by
    rw [List.length_take, Id.bytes_length]
    omega
  simp only [openDb, hd, hc, Option.getD_none, loadCheckpoint]
  rw [if_neg hl]

/-- A start that succeeds leaves the client anchored at the checkpoint it was built with, or, if it looks at the age of
checkpoints, at the one of the service of the command line or, if that was allowed, at one that healthy checkpoint
services elected. It starts one thread; a start that fails starts none. -/
theorem C84_source (env : Env) (web : Web σ) (horder : ∀ l, (web.order l).Perm l) (n : Node σ) (hr : Plain n.rpc) (s : σ) :
    (n.start env web s).1.2.settings = n.settings ∧
    (n.start env web s).1.2.threads = n.threads + (if (n.start env web s).1.1 = none then 1 else 0) ∧
    ((n.start env web s).1.1 = none →
      Anchored env (n.settings.config (n.start env web s).1.2.checkpoint) (n.start env web s).1.2.client ∧
      ((n.start env web s).1.2.checkpoint = n.checkpoint ∨
        n.settings.strict = true ∧
          (FromFallback web n (n.start env web s).1.2.checkpoint ∨
            n.settings.loadExternal = true ∧ FromServices web (n.start env web s).1.2.checkpoint))) :=
  ⟨(n.start_fields s).1, (n.start_fields s).2, n.start_ok horder hr s⟩

/-! ## Checkpoint services -/

/-- Of the answers of services the root with the most votes in the highest epoch is chosen; there is none exactly when
nobody voted. -/
theorem C84_pick (order : List (Id × Nat) → List (Id × Nat)) (horder : ∀ l, (order l).Perm l)
    (answers : List (Option (List Slot))) :
    (∀ root, pickCheckpoint order answers = some root → Elected (votes answers) root) ∧
    (pickCheckpoint order answers = none ↔ votes answers = []) :=
  ⟨fun root => pick_elected order horder answers root, pick_none order horder answers⟩

/-- One service that claims a later epoch decides alone, against any number of others. -/
theorem C84_lone_service_violated (order : List (Id × Nat) → List (Id × Nat)) (horder : ∀ l, (order l).Perm l) (k e : Nat)
    (root other : Id) :
    pickCheckpoint order (List.replicate k (some [⟨32 * e, some root, e⟩]) ++ [some [⟨32 * (e + 1), some other, e + 1⟩]]) =
      some other := by
  have hv : votes (List.replicate k (some [⟨32 * e, some root, e⟩]) ++ [some [⟨32 * (e + 1), some other, e + 1⟩]]) =
      List.replicate k (e, root) ++ [(e + 1, other)] := by
    rw [votes, List.filterMap_append]
    congr 1
    induction k with
    | zero => rfl
    | succ k ih => rw [List.replicate_succ, List.filterMap_cons, ih]; rfl
  obtain ⟨h1, h2⟩ := C84_pick order horder (List.replicate k (some [⟨32 * e, some root, e⟩]) ++
    [some [⟨32 * (e + 1), some other, e + 1⟩]])
  rw [hv] at h1 h2
  cases hp : pickCheckpoint order (List.replicate k (some [⟨32 * e, some root, e⟩]) ++
    [some [⟨32 * (e + 1), some other, e + 1⟩]]) with
  | none => exact absurd (h2.mp hp) (by simp)
  | some r =>
    obtain ⟨epoch, g1, g2, -⟩ := h1 r hp
    have := g2 (e + 1, other) (by simp)
    rcases List.mem_append.mp g1 with g1 | g1
    · have := (List.mem_replicate.mp g1).2
      simp only [Prod.mk.injEq] at this
      simp only at *
      omega
    · simp only [List.mem_singleton, Prod.mk.injEq] at g1
      rw [g1.2]

/-- Slashes at the end of an endpoint make no difference. -/
theorem C84_url (endpoint : List Char) (k : Nat) (h : endpoint.getLast? ≠ some '/') :
    constructUrl (endpoint ++ List.replicate k '/') = endpoint ++ "/checkpointz/v1/beacon/slots".toList := by
  have key : (endpoint ++ List.replicate k '/').reverse.dropWhile (· == '/') = endpoint.reverse := by
    rw [List.reverse_append, List.reverse_replicate]
    have h0 : endpoint.reverse.dropWhile (· == '/') = endpoint.reverse := by
      cases hr : endpoint.reverse with
      | nil => rfl
      | cons c l =>
        have : endpoint.getLast? = some c := by
          rw [← List.head?_reverse, hr]; rfl
        rw [List.dropWhile_cons_of_neg]
        intro hc
        exact h (by rw [this, eq_of_beq hc])
    induction k with
    | zero => exact h0
    | succ k ih =>
      rw [List.replicate_succ, List.cons_append, List.dropWhile_cons_of_pos (by simp)]
      exact ih
  rw [constructUrl, key, List.reverse_reverse]

/-! ## Examples, and where the code falls short -/

namespace LightLifeEx

/-- Hashing keeps the left node, so that the root of a header is its slot; all signatures are valid. -/
def env : Env := ⟨fun a _ => a, fun _ => true, fun _ _ _ => true⟩

def header (slot : UInt64) : Header := ⟨slot, 0, 0, 0, 0⟩
def committee : Committee := ⟨List.replicate 512 [], []⟩
def boot (slot : UInt64) : Bootstrap := ⟨header slot, committee, List.replicate 6 0⟩
def bits : List Bool := List.replicate 512 true
def root (slot : UInt64) : Id := headerRoot env.H (header slot)

/-- The first slot of period 5, and the time ten slots later. -/
def begin : UInt64 := 40960
def time : Nat := 1606824023 + 12 * 40970

/-- The clock runs a second for each reading; there is no finality update and no update. -/
def rpc : Rpc Nat where
  portal := true
  chainId s := (some 1, s)
  bootstrap r s := if r = root begin then (.ok (boot begin), s) else (.error .other, s)
  updates _ _ s := (.error .other, s)
  finality s := (.error .other, s)
  optimistic s := (.ok (.optimistic (header 40965) bits [] 40966), s)
  clock s := (s, s + 1)

def web : Web Nat where
  serve s := (true, s)
  slots _ s := (none, s)
  services s := (none, s)
  order l := l
  sleep k s := s + k
  renew := none

example : Plain rpc := by
  refine ⟨?_, ?_, ?_⟩
  · intro r s; simp only [rpc]; split <;> simp
  · intro p n s; simp [rpc]
  · intro s; simp [rpc]

example : Steady rpc id := by
  refine ⟨fun s => Nat.le_refl _, fun r s => ?_, fun _ _ s => Nat.le_refl _, fun s => Nat.le_refl _, fun s => Nat.le_refl _,
    fun s => Nat.le_succ _, fun s => Nat.le_succ _⟩
  simp only [rpc]
  split <;> exact Nat.le_refl _

/-- A start that succeeds at once; the head is the attested header. -/
example : (beaconSync env web rpc (root begin) none time).1.1 = none ∧
    (beaconSync env web rpc (root begin) none time).1.2.2 = 1 ∧
    ((beaconSync env web rpc (root begin) none time).1.2.1.map fun n => (n.client.store.optimistic, n.threads)) =
      some (header 40965, 1) ∧
    ((beaconSync env web rpc (root begin) none time).1.2.1.map fun n => n.header (time + 60)) =
      some (.ok (header 40965)) ∧
    ((beaconSync env web rpc (root begin) none time).1.2.1.map fun n => n.header (time + 72)) =
      some (.error .other) := by decide +kernel

/-- Another root: ten attempts, a hundred seconds. -/
example : (beaconSync env web rpc 7 none time).1.1 = some .other ∧ (beaconSync env web rpc 7 none time).1.2.2 = 10 ∧
    (beaconSync env web rpc 7 none time).2 = time + 100 := by decide +kernel

/-- The chain of these headers. -/
def chain : Chain := ⟨fun _ => True, fun _ => committee⟩

example : Trusted env chain rpc (root begin) := by
  refine ⟨fun s b h => ⟨fun _ => trivial, fun _ _ => ?_⟩, fun m hm => ⟨fun _ _ => trivial, fun _ _ _ _ _ _ => trivial, ?_⟩⟩
  · simp only [rpc, if_true, Except.ok.injEq] at h
    rw [← h]; rfl
  · intro c b hc
    obtain ⟨s, ⟨p, n, ms, h, -⟩ | h | h⟩ := hm
    · simp [rpc] at h
    · simp [rpc] at h
    · simp only [rpc, Except.ok.injEq] at h
      subst h
      cases hc

example : ∀ p, ∀ key ∈ (chain.committee p).pubkeys, env.keyOk key = true := fun _ _ _ => rfl

/-- An RPC that answers another request than it was asked: an old header for every root but one. -/
def liar : Rpc Nat := { rpc with
  portal := false
  bootstrap := fun r s => if r = root begin then (.ok (boot begin), s) else (.ok (boot 1), s)
  updates := fun _ _ s => (.ok [], s)
  clock := fun s => (s, s) }

/-- A client that looks at the age of its checkpoint, with a service of the command line. -/
def strictNode : Node Nat where
  settings := { (freshNode liar (root 40959)).settings with strict := true, fallback := some "http://a".toList }
  rpc := liar
  checkpoint := root 40959
  client := emptyClient
  threads := 0

def fallbackWeb (slots : List Slot) : Web Nat := { web with
  slots := fun _ s => (some slots, s)
  renew := some liar }

def late : Nat := 1606824023 + 12 * 120000

end LightLifeEx

open LightLifeEx in
/-- The age of a bootstrap is looked at before its root: an RPC that answers with any old header, not the one asked for,
moves a client that trusts a recent checkpoint to that of the service. -/
theorem C84_downgrade_violated : ∃ (env : Env) (web : Web Nat) (n : Node Nat) (s : Nat) (b : Bootstrap),
    (n.rpc.bootstrap n.checkpoint s).1 = .ok b ∧ headerRoot env.H b.header ≠ n.checkpoint ∧
    (n.start env web s).1.1 = none ∧ (n.start env web s).1.2.checkpoint ≠ n.checkpoint := by
  refine ⟨LightLifeEx.env, fallbackWeb [⟨40960, some (root begin), 1280⟩], { strictNode with
    settings := { strictNode.settings with maxCheckpointAge := 400000 } }, time, boot 1, ?_⟩
  decide +kernel

open LightLifeEx in
/-- A start that fails with the checkpoint of a service leaves the client with that checkpoint: the next start no longer
uses the one it was built with. -/
theorem C84_left_violated : ∃ (env : Env) (web : Web Nat) (n : Node Nat) (s : Nat),
    (n.start env web s).1.1 = some .tooOld ∧ (n.start env web s).1.2.checkpoint ≠ n.checkpoint := by
  refine ⟨LightLifeEx.env, fallbackWeb [⟨1, some 77, 0⟩], strictNode, late, ?_⟩
  decide +kernel

open LightLifeEx in
/-- A service that knows no slots ends the program. -/
theorem C84_empty_answer_violated : ∃ (env : Env) (web : Web Nat) (n : Node Nat) (s : Nat),
    (n.start env web s).1.1 = some .abort := by
  refine ⟨LightLifeEx.env, fallbackWeb [], strictNode, late, ?_⟩
  decide +kernel

/-- On Sepolia the time of a message is compared with the slot of mainnet: a message of the future is accepted. -/
theorem C84_sepolia_violated : ∃ (env : Env) (r : Rpc Nat) (c : Client) (m : Msg) (s slot : Nat),
    slotAt sepolia.genesisTime (r.clock s).1 = some slot ∧ slot < m.generic.signatureSlot ∧
    (processNow env ⟨0, sepolia.genesisRoot, sepolia.maxCheckpointAge, true, sepolia.forks, sepolia.genesisVersion⟩ r c m s).1.2
      = none := by
  refine ⟨LightLifeEx.env, LightLifeEx.rpc, { emptyClient with store := ⟨LightLifeEx.header 40960, LightLifeEx.committee, none,
    LightLifeEx.header 40960, 0, 0⟩ }, .optimistic (LightLifeEx.header 41000) LightLifeEx.bits [] 41001, 1655733600 + 12 * 40970,
    40970, ?_⟩
  decide +kernel

namespace LightLifeEx

/-- Saving and opening. -/
example : ∃ st, (beaconBuilder 5).buildWithRpc = .ok st ∧ openDb { st with checkpoint := none }
    (shutdown { emptyClient with lastCheckpoint := some 9 } none) = .ok 9 ∧
    openDb { st with checkpoint := none } (some [1, 2, 3]) = .ok (builtIn .mainnet) ∧ openDb st (some [1, 2, 3]) = .ok 5 :=
  ⟨_, rfl, by decide +kernel, by decide +kernel, by decide +kernel⟩

/-- Three services agree, one is behind, one does not answer. -/
example : pickCheckpoint id [some [⟨64, some 1, 2⟩], some [⟨96, none, 3⟩, ⟨64, some 2, 2⟩], none, some [⟨64, some 2, 2⟩],
    some [⟨32, some 3, 1⟩], some []] = some 2 := by decide +kernel

example : constructUrl "http://a//".toList = "http://a/checkpointz/v1/beacon/slots".toList := by decide +kernel

example : untilNextUpdate 1606824023 (1606824023 + 25) (1606824023 + 25) = some 19 := by decide +kernel

/-- A network on which every lookup fails: a synchronisation asks for the bootstrap only. -/
def silent : Portal Unit := ⟨fun _ s => (none, s), fun s => (time, s)⟩
example : (LightNode.sync env (mainnetConfig 5) 1606824023 (portalRpc silent) emptyClient ⟨(), [], []⟩).2.asked =
    [.bootstrap 5] := by decide +kernel

/-! A network that has what a client of period 5 needs in period 7. -/

open BeaconValue in
def exec : ExecPart .electra := (⟨0, ⟨List.replicate 20 0, List.length_replicate⟩, 0, 0, ⟨List.replicate 256 0, List.length_replicate⟩, 0, 0, 0, 0, 0,
  ⟨[], by decide⟩, 0, 0, 0, 0, 0, 0⟩, ⟨[0, 0, 0, 0], by decide⟩)
def keys : BeaconValue.SyncCommittee := ⟨⟨List.replicate 512 ⟨List.replicate 48 0, List.length_replicate⟩, List.length_replicate⟩, ⟨List.replicate 48 0, List.length_replicate⟩⟩
def aggregate : BeaconValue.SyncAggregate := ⟨⟨List.replicate 64 0xff, List.length_replicate⟩, ⟨List.replicate 96 0, List.length_replicate⟩⟩
def updateAt (slot : UInt64) : BeaconValue.Update .electra :=
  ⟨⟨header (slot + 100), exec⟩, keys, ⟨List.replicate 6 0, List.length_replicate⟩, ⟨header (slot + 32), exec⟩, ⟨List.replicate 7 0, List.length_replicate⟩,
    aggregate, slot + 101⟩

def value : ContentKey.Beacon → Option BeaconValue.Value
  | .bootstrap r => if r = root begin then some (.bootstrap ⟨.electra, ⟨⟨header begin, exec⟩, keys, ⟨List.replicate 6 0, List.length_replicate⟩⟩⟩) else none
  | .updatesByRange p 1 => some (.updates ⟨[⟨.electra, updateAt (p * 8192)⟩], Nat.le_of_ble_eq_true rfl⟩)
  | .optimisticUpdate slot => some (.optimistic ⟨.electra, ⟨⟨header (slot - 1), exec⟩, aggregate, slot⟩⟩)
  | _ => none

def present : Nat := 1606824023 + 12 * (7 * 8192 + 50)
def network : Portal Unit := ⟨fun k s => ((value k).map (·.encode), s), fun s => (present, s)⟩

theorem value_belongs (k : ContentKey.Beacon) (v : BeaconValue.Value) (h : value k = some v) :
    BeaconValue.Value.decode k v.encode = .ok v := by
  apply C54_roundtrip
  unfold value at h
  split at h
  · split at h
    · cases h; exact trivial
    · cases h
  · cases h; exact trivial
  · cases h; exact trivial
  · cases h

/-- The same without the encoding. -/
def found (k : ContentKey.Beacon) (s : Asked Unit) : Except Fail BeaconValue.Value × Asked Unit :=
  (match value k with
    | some v => .ok v
    | none => .error .other, ⟨(), s.asked ++ [k], s.read⟩)

theorem network_find (k : ContentKey.Beacon) (s : Asked Unit) : network.find k s = found k s := by
  simp only [Portal.find, network, found]
  cases h : value k with
  | none => rfl
  | some v => simp only [Option.map_some, value_belongs k v h]

def plainRpc : Rpc (Asked Unit) where
  portal := true
  chainId s := (some 1, s)
  bootstrap root s := let r := found (.bootstrap root) s; (readAs asBootstrap r.1, r.2)
  updates period count s := let r := found (.updatesByRange period count) s; (readAs asUpdates r.1, r.2)
  finality s := let r := found (.finalityUpdate 0) s; (readAs asFinality r.1, r.2)
  optimistic s :=
    let t := network.tick s
    match slotAt beaconGenesis t.1 with
    | none => (.error .abort, t.2)
    | some now => let r := found (.optimisticUpdate (UInt64.ofNat now)) t.2; (readAs asOptimistic r.1, r.2)
  clock := network.tick

theorem network_rpc : portalRpc network = plainRpc := by
  have : network.find = found := by funext k s; exact network_find k s
  simp only [portalRpc, this]
  rfl

example : (LightNode.sync env (mainnetConfig (root begin)) 1606824023 (portalRpc network) emptyClient ⟨(), [], []⟩).1.2 = none ∧
    (LightNode.sync env (mainnetConfig (root begin)) 1606824023 (portalRpc network) emptyClient ⟨(), [], []⟩).2.asked =
      [.bootstrap (root begin), .updatesByRange 5 1, .updatesByRange 6 1, .finalityUpdate 0, .optimisticUpdate (7 * 8192 + 50)] := by
  rw [network_rpc]
  decide +kernel

/-- This network finds updates for a period, all of the last fork. -/
example : ∃ ms, ((portalRpc network).updates 5 1 ⟨(), [], []⟩).1 = .ok ms ∧ ms.length = 1 :=
  ⟨[messageOf (updateAt (5 * 8192))], (C84_updates_answer network 5 1 ⟨(), [], []⟩ _).mpr
    ⟨_, [updateAt (5 * 8192)], ⟨trivial, congrArg some (C54_format (.updates ⟨[⟨.electra, updateAt (5 * 8192)⟩], _⟩))⟩, rfl, rfl⟩, rfl⟩

/-- A builder for Sepolia with a configuration of mainnet besides, and a node whose RPC is of another chain. -/
example : ∃ st, ({ network := some .sepolia, config := some (freshNode rpc 5).settings, fallback := some [] } : Builder).build = .ok st ∧
    st.chainId = 11155111 ∧ st.fallback = some [] := ⟨_, rfl, rfl, rfl⟩

example : ((freshNode { rpc with chainId := fun s => (some 2, s) } 5).rpc.chainId 0).1 ≠
    some (freshNode rpc 5).settings.chainId := by decide

end LightLifeEx

end Verif.Props
