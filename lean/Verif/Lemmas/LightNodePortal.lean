import Verif.Lemmas.LightNode

/-! # Lemmas about the light client of the beacon network -/

namespace Verif.LightNode
open Verif.LightClient (Env Client Msg Bootstrap)
open Verif.BeaconValue (Value)
open Verif.Props Verif.Props.LightLife

variable {σ : Type}

theorem readAs_tooOld {α : Type} (of : Value → Option α) (x : Except Fail Value) (h : x ≠ .error .tooOld) :
    readAs of x ≠ .error .tooOld := by
  cases x with
  | error f => simpa [readAs] using h
  | ok v => simp only [readAs]; split <;> simp

theorem find_tooOld (w : Portal σ) (k : ContentKey.Beacon) (s : Asked σ) : (w.find k s).1 ≠ .error .tooOld := by
  simp only [Portal.find]
  split
  · simp
  · split <;> simp

theorem portal_plain (w : Portal σ) : Plain (portalRpc w) where
  bootstrap root s := readAs_tooOld _ _ (find_tooOld w _ s)
  updates p n s := readAs_tooOld _ _ (find_tooOld w _ s)
  optimistic s := by
    simp only [portalRpc]
    split
    · simp
    · exact readAs_tooOld _ _ (find_tooOld w _ _)

theorem find_asked (w : Portal σ) (k : ContentKey.Beacon) (s : Asked σ) :
    (w.find k s).2.asked = s.asked ++ [k] ∧ (w.find k s).2.read = s.read := by
  simp only [Portal.find]
  split
  · exact ⟨rfl, rfl⟩
  · split <;> exact ⟨rfl, rfl⟩

section
variable {env : Env} {cfg : LightClient.Config} {w : Portal σ}

theorem processNow_asked (c : Client) (m : Msg) (s : Asked σ) :
    (processNow env cfg (portalRpc w) c m s).2.asked = s.asked ∧
    (processNow env cfg (portalRpc w) c m s).2.read = s.read ++ [(w.clock s.world).1] := by
  simp only [processNow, slotNow]
  split
  · exact ⟨rfl, rfl⟩
  · split <;> exact ⟨rfl, rfl⟩

theorem processList_asked (ms : List Msg) (c : Client) (s : Asked σ) :
    (processList env cfg (portalRpc w) c ms s).2.asked = s.asked ∧
    ∃ ts, (processList env cfg (portalRpc w) c ms s).2.read = s.read ++ ts := by
  induction ms generalizing c s with
  | nil => exact ⟨rfl, [], by simp [processList]⟩
  | cons m ms ih =>
    obtain ⟨h1, h2⟩ := processNow_asked (env := env) (cfg := cfg) (w := w) c m s
    simp only [processList]
    split
    · exact ⟨h1, _, h2⟩
    · obtain ⟨g1, ts, g2⟩ := ih (processNow env cfg (portalRpc w) c m s).1.1 (processNow env cfg (portalRpc w) c m s).2
      exact ⟨g1.trans h1, [(w.clock s.world).1] ++ ts, by rw [g2, h2, List.append_assoc]⟩

theorem collect_asked (ps : List Nat) (s : Asked σ) :
    (collect (portalRpc w) ps s).2.read = s.read ∧
    ∃ n, n ≤ ps.length ∧ (∀ ms, (collect (portalRpc w) ps s).1 = .ok ms → n = ps.length) ∧
      (collect (portalRpc w) ps s).2.asked =
        s.asked ++ (ps.take n).map fun p => .updatesByRange (UInt64.ofNat p) 1 := by
  induction ps generalizing s with
  | nil => exact ⟨rfl, 0, Nat.le_refl _, fun _ _ => rfl, by simp [collect]⟩
  | cons p ps ih =>
    obtain ⟨h1, h2⟩ := find_asked w (.updatesByRange (UInt64.ofNat p) 1) s
    have e2 : ((portalRpc w).updates (UInt64.ofNat p) 1 s).2 = (w.find (.updatesByRange (UInt64.ofNat p) 1) s).2 := rfl
    simp only [collect]
    split
    · exact ⟨h2, 1, by simp, by simp, h1⟩
    · obtain ⟨g1, n, g2, g3, g4⟩ := ih ((portalRpc w).updates (UInt64.ofNat p) 1 s).2
      rw [e2] at g1 g4 g3
      rw [h2] at g1
      rw [h1] at g4
      rw [e2]
      split
      · exact ⟨g1, n + 1, by simpa using g2, by simp, by simpa using g4⟩
      · next rest hr => exact ⟨g1, n + 1, by simpa using g2, fun _ _ => by simp [g3 _ hr], by simpa using g4⟩

theorem fetchUpdates_asked (first : Nat) (s : Asked σ) :
    ∃ t, (fetchUpdates (portalRpc w) first s).2.read = s.read ++ [t] ∧
    ∃ n, (fetchUpdates (portalRpc w) first s).2.asked =
        s.asked ++ ((List.range' first (mainnetSlot t / 8192 - first)).take n).map
          (fun p => .updatesByRange (UInt64.ofNat p) 1) ∧
      ∀ ms, (fetchUpdates (portalRpc w) first s).1 = .ok ms → n = mainnetSlot t / 8192 - first := by
  refine ⟨(w.clock s.world).1, ?_⟩
  simp only [fetchUpdates, slotNow, show (portalRpc w).portal = true from rfl, if_true]
  split
  · exact ⟨rfl, 0, by simp [portalRpc, Portal.tick], by simp⟩
  · next now hnow =>
    have hn : now = mainnetSlot (w.clock s.world).1 := by
      simp only [slotAt] at hnow
      split at hnow
      · cases hnow
      · cases hnow; rfl
    obtain ⟨g1, n, g2, g3, g4⟩ := collect_asked (w := w) (List.range' first (LightClient.syncPeriod now - first))
      ((portalRpc w).clock s).2
    have hp : LightClient.syncPeriod now = mainnetSlot (w.clock s.world).1 / 8192 := by
      rw [hn, LightClient.syncPeriod, Nat.div_div_eq_div_mul]
    rw [hp] at g1 g3 g4 ⊢
    refine ⟨g1, n, g4, fun ms hms => ?_⟩
    have := g3 ms hms
    simpa using this

theorem latestFinality_asked (c : Client) (s : Asked σ) :
    (latestFinality env cfg (portalRpc w) c s).2.asked = s.asked ++ [.finalityUpdate 0] ∧
    ∃ ts, (latestFinality env cfg (portalRpc w) c s).2.read = s.read ++ ts := by
  obtain ⟨h1, h2⟩ := find_asked w (.finalityUpdate 0) s
  simp only [latestFinality]
  split
  · next m hm =>
    obtain ⟨g1, g2⟩ := processNow_asked (env := env) (cfg := cfg) (w := w) c m ((portalRpc w).finality s).2
    rw [g1, g2]
    exact ⟨h1, _, by rw [show ((portalRpc w).finality s).2.read = s.read from h2]⟩
  · exact ⟨h1, [], by rw [List.append_nil]; exact h2⟩
  · exact ⟨h1, [], by rw [List.append_nil]; exact h2⟩

theorem latestOptimistic_asked (c : Client) (s : Asked σ) :
    (∃ t ts ks, (latestOptimistic env cfg (portalRpc w) c s).2.read = s.read ++ t :: ts ∧
      ks <+: [ContentKey.Beacon.optimisticUpdate (UInt64.ofNat (mainnetSlot t))] ∧
      (latestOptimistic env cfg (portalRpc w) c s).2.asked = s.asked ++ ks ∧
      ((latestOptimistic env cfg (portalRpc w) c s).1.2 = none → (∃ t', ts = [t']) ∧
        ks = [ContentKey.Beacon.optimisticUpdate (UInt64.ofNat (mainnetSlot t))])) := by
  refine ⟨(w.clock s.world).1, ?_⟩
  simp only [latestOptimistic]
  have key : ((portalRpc w).optimistic s = (.error .abort, (w.tick s).2)) ∨
      ((portalRpc w).optimistic s = (readAs asOptimistic
        (w.find (.optimisticUpdate (UInt64.ofNat (mainnetSlot (w.clock s.world).1))) (w.tick s).2).1,
        (w.find (.optimisticUpdate (UInt64.ofNat (mainnetSlot (w.clock s.world).1))) (w.tick s).2).2)) := by
    have : (w.tick s).1 = (w.clock s.world).1 := rfl
    simp only [portalRpc, this, slotAt]
    split
    · next h =>
      split at h
      · exact Or.inl rfl
      · cases h
    · next now h =>
      split at h
      · cases h
      · cases h; exact Or.inr rfl
  rcases key with h | h
  · rw [h]
    exact ⟨[], [], rfl, List.nil_prefix, by simp [Portal.tick], by simp⟩
  · obtain ⟨f1, f2⟩ := find_asked w (.optimisticUpdate (UInt64.ofNat (mainnetSlot (w.clock s.world).1))) (w.tick s).2
    rw [h]
    simp only
    split
    · exact ⟨[], _, f2, List.prefix_rfl, f1, by simp⟩
    · next m hm =>
      obtain ⟨g1, g2⟩ := processNow_asked (env := env) (cfg := cfg) (w := w) c m
        (w.find (.optimisticUpdate (UInt64.ofNat (mainnetSlot (w.clock s.world).1))) (w.tick s).2).2
      rw [g1, g2]
      rw [f2]
      generalize (w.clock (w.find _ (w.tick s).2).2.world).1 = t'
      exact ⟨[t'], _, by simp [Portal.tick], List.prefix_rfl, f1, fun _ => ⟨⟨t', rfl⟩, rfl⟩⟩

theorem latest_asked (c : Client) (s : Asked σ) :
    ∃ ts t us ks, (latest env cfg (portalRpc w) c s).2.read = s.read ++ ts ++ us ∧
      ks <+: [ContentKey.Beacon.finalityUpdate 0, .optimisticUpdate (UInt64.ofNat (mainnetSlot t))] ∧ ks ≠ [] ∧
      (latest env cfg (portalRpc w) c s).2.asked = s.asked ++ ks ∧
      ((latest env cfg (portalRpc w) c s).1.2 = none → (∃ t', us = [t, t']) ∧
        ks = [.finalityUpdate 0, .optimisticUpdate (UInt64.ofNat (mainnetSlot t))]) := by
  obtain ⟨h1, ts, h2⟩ := latestFinality_asked (env := env) (cfg := cfg) (w := w) c s
  simp only [latest]
  split
  · next e he =>
    exact ⟨ts, 0, [], [.finalityUpdate 0], by simpa using h2, by simp, by simp, h1, by simp⟩
  · obtain ⟨t, us, ks, g1, g2, g3, g4⟩ := latestOptimistic_asked (env := env) (cfg := cfg) (w := w)
      (latestFinality env cfg (portalRpc w) c s).1.1 (latestFinality env cfg (portalRpc w) c s).2
    refine ⟨ts, t, t :: us, .finalityUpdate 0 :: ks, by rw [g1, h2], ?_, by simp, by rw [g3, h1]; simp, fun hn => ?_⟩
    · exact (List.prefix_cons_inj _).mpr g2
    · obtain ⟨⟨t', rfl⟩, rfl⟩ := g4 hn
      exact ⟨⟨t', rfl⟩, rfl⟩

theorem find_bootstrap (root : Id) (s : Asked σ) (b : Bootstrap) (h : ((portalRpc w).bootstrap root s).1 = .ok b) :
    ∃ bs x, (w.lookup (.bootstrap root) s.world).1 = some bs ∧
      Value.decode (.bootstrap root) bs = .ok (.bootstrap ⟨.electra, x⟩) ∧ b = bootstrapOf x := by
  simp only [portalRpc, Portal.find] at h
  split at h
  · cases h
  · next bs hbs =>
    split at h
    · next v hv =>
      simp only [readAs] at h
      split at h
      · next x hx =>
        cases h
        simp only [asBootstrap] at hx
        split at hx
        · next y => cases hx; exact ⟨bs, y, hbs, hv, rfl⟩
        · cases hx
      · cases h
    · cases h
    · cases h

theorem syncPeriod_div (n : Nat) : LightClient.syncPeriod n = n / 8192 := by
  rw [LightClient.syncPeriod, Nat.div_div_eq_div_mul]

theorem syncFrom_asked (c : Client) (s : Asked σ) :
    ∃ ks t1 us t2, (syncFrom env cfg (portalRpc w) c s).2.asked = s.asked ++ ks ∧
      ks <+: ((List.range' (c.store.finalized.slot.toNat / 8192)
          (mainnetSlot t1 / 8192 - c.store.finalized.slot.toNat / 8192)).map fun p => .updatesByRange (UInt64.ofNat p) 1) ++
        [.finalityUpdate 0, .optimisticUpdate (UInt64.ofNat (mainnetSlot t2))] ∧
      (syncFrom env cfg (portalRpc w) c s).2.read = s.read ++ t1 :: us ∧
      ((syncFrom env cfg (portalRpc w) c s).1.2 = none →
        ks = ((List.range' (c.store.finalized.slot.toNat / 8192)
          (mainnetSlot t1 / 8192 - c.store.finalized.slot.toNat / 8192)).map fun p => .updatesByRange (UInt64.ofNat p) 1) ++
        [.finalityUpdate 0, .optimisticUpdate (UInt64.ofNat (mainnetSlot t2))] ∧
        ∃ mid t3, us = mid ++ [t2, t3]) := by
  simp only [syncFrom, syncPeriod_div]
  generalize c.store.finalized.slot.toNat / 8192 = first
  obtain ⟨t1, u1, n, u2, u3⟩ := fetchUpdates_asked (w := w) first s
  generalize hq : mainnetSlot t1 / 8192 - first = q at u2 u3
  split
  · refine ⟨_, t1, [], 0, u2, ?_, by simpa using u1, by simp⟩
    rw [hq]
    exact (List.IsPrefix.map _ (List.take_prefix _ _)).trans (List.prefix_append _ _)
  · next ms hms =>
    have hn := u3 ms hms
    have htake : (List.range' first q).take n = List.range' first q := List.take_of_length_le (by simp [hn])
    rw [htake] at u2
    obtain ⟨p1, ps, p2⟩ := processList_asked (env := env) (cfg := cfg) (w := w) ms c (fetchUpdates (portalRpc w) first s).2
    rw [u2] at p1
    rw [u1] at p2
    generalize processList env cfg (portalRpc w) c ms (fetchUpdates (portalRpc w) first s).2 = x at p1 p2
    split
    · refine ⟨_, t1, ps, 0, p1, ?_, by simp [p2], by simp⟩
      rw [hq]
      exact List.prefix_append _ _
    · obtain ⟨ts, t, us, ks, l1, l2, l3, l4, l5⟩ := latest_asked (env := env) (cfg := cfg) (w := w) x.1.1 x.2
      rw [p1] at l4
      rw [p2] at l1
      refine ⟨_, t1, ps ++ ts ++ us, t, by rw [l4, List.append_assoc], ?_, by simp [l1], ?_⟩
      · rw [hq]
        exact (List.prefix_append_right_inj _).mpr l2
      · intro hnone
        obtain ⟨⟨t', rfl⟩, rfl⟩ := l5 hnone
        rw [hq]
        exact ⟨rfl, ps ++ ts, t', rfl⟩

theorem clock_asked (s : Asked σ) : ((portalRpc w).clock s).2.asked = s.asked ∧
    ∃ t, ((portalRpc w).clock s).2.read = s.read ++ [t] := ⟨rfl, _, rfl⟩

theorem bootstrap_asked (root : Id) (s : Asked σ) :
    ((portalRpc w).bootstrap root s).2.asked = s.asked ++ [.bootstrap root] ∧
    ((portalRpc w).bootstrap root s).2.read = s.read := find_asked w (.bootstrap root) s

theorem syncPlan_eq (root : Id) (first present slot : Nat) : syncPlan root first present slot =
    .bootstrap root :: (((List.range' first (present - first)).map fun p => .updatesByRange (UInt64.ofNat p) 1) ++
      [.finalityUpdate 0, .optimisticUpdate (UInt64.ofNat slot)]) := by
  simp only [syncPlan, List.cons_append]

theorem sync_asked (genesis : Nat) (c : Client) (s : Asked σ) :
    ∃ ks first present slot, (sync env cfg genesis (portalRpc w) c s).2.asked = s.asked ++ ks ∧ ks ≠ [] ∧
      ks <+: syncPlan cfg.checkpoint first present slot ∧
      ((sync env cfg genesis (portalRpc w) c s).1.2 = none →
        ks = syncPlan cfg.checkpoint first present slot ∧
        ∃ bs b t0 t1 mid t2 t3, (w.lookup (.bootstrap cfg.checkpoint) s.world).1 = some bs ∧
          Value.decode (.bootstrap cfg.checkpoint) bs = .ok (.bootstrap ⟨.electra, b⟩) ∧
          (sync env cfg genesis (portalRpc w) c s).2.read = s.read ++ (t0 :: t1 :: mid ++ [t2, t3]) ∧
          first = b.header.beacon.slot.toNat / 8192 ∧ present = mainnetSlot t1 / 8192 ∧ slot = mainnetSlot t2) := by
  have short : ∀ (x : Asked σ), x.asked = s.asked ++ [.bootstrap cfg.checkpoint] →
      ∃ ks first present slot, x.asked = s.asked ++ ks ∧ ks ≠ [] ∧ ks <+: syncPlan cfg.checkpoint first present slot := by
    intro x hx
    exact ⟨[.bootstrap cfg.checkpoint], 0, 0, 0, hx, by simp, by simp [syncPlan]⟩
  obtain ⟨b1, b2⟩ := bootstrap_asked (w := w) cfg.checkpoint s
  have hboot := find_bootstrap (w := w) cfg.checkpoint s
  simp only [sync]
  generalize (portalRpc w).bootstrap cfg.checkpoint s = x at b1 b2 hboot
  split
  · next f hf =>
    obtain ⟨ks, p, q, t, h1, h2, h3⟩ := short x.2 b1
    exact ⟨ks, p, q, t, h1, h2, h3, by simp⟩
  · next boot hb =>
    obtain ⟨bs, y, x1, x2, x3⟩ := hboot boot hb
    simp only [slotNow]
    obtain ⟨c1, t0, c2⟩ := clock_asked (w := w) x.2
    rw [b1] at c1
    rw [b2] at c2
    generalize (portalRpc w).clock x.2 = z at c1 c2
    split
    · obtain ⟨ks, p, q, t, h1, h2, h3⟩ := short z.2 c1
      exact ⟨ks, p, q, t, h1, h2, h3, by simp⟩
    · split
      · obtain ⟨ks, p, q, t, h1, h2, h3⟩ := short z.2 c1
        exact ⟨ks, p, q, t, h1, h2, h3, by simp⟩
      · next c0 hc0 =>
        obtain ⟨-, -, -, e4⟩ := bootstrap_ok _ _ _ _ _ _ hc0
        have hfin : c0.store.finalized = y.header.beacon := by rw [e4, x3]; rfl
        obtain ⟨ks, t1, us, t2, k1, k2, k3, k4⟩ := syncFrom_asked (env := env) (cfg := cfg) (w := w) c0 z.2
        rw [hfin] at k2 k4
        generalize syncFrom env cfg (portalRpc w) c0 z.2 = out at k1 k3 k4
        rw [c1] at k1
        rw [c2] at k3
        refine ⟨.bootstrap cfg.checkpoint :: ks, y.header.beacon.slot.toNat / 8192, mainnetSlot t1 / 8192, mainnetSlot t2,
          by rw [k1]; simp, by simp, ?_, ?_⟩
        · rw [syncPlan_eq]
          exact (List.prefix_cons_inj _).mpr k2
        · intro hn
          obtain ⟨m1, mid, t3, rfl⟩ := k4 hn
          refine ⟨by rw [m1, syncPlan_eq], bs, y, t0, t1, mid, t2, t3, x1, x2, by rw [k3]; simp, rfl, rfl, rfl⟩

theorem finalized_keeps (r : Rpc σ) (k : Nat) : Keeps env cfg r fun _ c => k ≤ c.store.finalized.slot.toNat where
  updates _ _ _ _ h := h
  finality _ _ h := h
  optimistic _ _ h := h
  clock _ _ h := h
  process := by
    intro s c c' m now h _ _ hp
    obtain ⟨-, rfl⟩ := (LightClient.process_iff env cfg now c c' m).mp hp
    exact Nat.le_trans h (C40_apply env c m).finalized

theorem period_ofNat (n : UInt64) : (UInt64.ofNat (LightClient.syncPeriod n.toNat)).toNat = n.toNat / 8192 := by
  have := n.toNat_lt
  rw [LightClient.syncPeriod, Nat.div_div_eq_div_mul, UInt64.toNat_ofNat']
  exact Nat.mod_eq_of_lt (by omega)

theorem advance_asked (c : Client) (s : Asked σ) :
    ∃ ks slot period, (advance env cfg (portalRpc w) c s).2.asked = s.asked ++ ks ∧ ks ≠ [] ∧
      ks <+: [ContentKey.Beacon.finalityUpdate 0, .optimisticUpdate (UInt64.ofNat slot), .updatesByRange period 1] ∧
      (3 ≤ ks.length → c.store.finalized.slot.toNat / 8192 ≤ period.toNat ∧
        period.toNat ≤ (advance env cfg (portalRpc w) c s).1.1.store.finalized.slot.toNat / 8192) ∧
      ((advance env cfg (portalRpc w) c s).1.2 = none → 2 ≤ ks.length ∧
        (∃ ts, (advance env cfg (portalRpc w) c s).2.read = s.read ++ ts ∧ ∃ t ∈ ts, slot = mainnetSlot t) ∧
        ((advance env cfg (portalRpc w) c s).1.1.store.next = none → ks.length = 3)) := by
  obtain ⟨ts, t, us, ks, l1, l2, l3, l4, l5⟩ := latest_asked (env := env) (cfg := cfg) (w := w) c s
  have hmono : c.store.finalized.slot.toNat ≤ (latest env cfg (portalRpc w) c s).1.1.store.finalized.slot.toNat :=
    latest_keeps (finalized_keeps (portalRpc w) c.store.finalized.slot.toNat) c s (Nat.le_refl _)
  have hlen : ks.length ≤ 2 := l2.length_le
  have hpre : ∀ period, ks <+: [ContentKey.Beacon.finalityUpdate 0, .optimisticUpdate (UInt64.ofNat (mainnetSlot t)),
      .updatesByRange period 1] := fun period => l2.trans ⟨[.updatesByRange period 1], rfl⟩
  simp only [advance]
  generalize latest env cfg (portalRpc w) c s = l at l1 l4 l5 hmono
  split
  · exact ⟨ks, _, 0, l4, l3, hpre 0, fun h => by omega, by simp⟩
  · next hn =>
    obtain ⟨⟨t', rfl⟩, hk⟩ := l5 hn
    split
    · have hper := period_ofNat l.1.1.store.finalized.slot
      generalize UInt64.ofNat (LightClient.syncPeriod l.1.1.store.finalized.slot.toNat) = p at hper
      obtain ⟨f1, f2⟩ := find_asked w (.updatesByRange p 1) l.2
      have g1 : ((portalRpc w).updates p 1 l.2).2.asked = l.2.asked ++ [.updatesByRange p 1] := f1
      have g2 : ((portalRpc w).updates p 1 l.2).2.read = l.2.read := f2
      have hrange : c.store.finalized.slot.toNat / 8192 ≤ p.toNat := by
        rw [hper]; exact Nat.div_le_div_right hmono
      generalize (portalRpc w).updates p 1 l.2 = u at g1 g2
      rw [l4, List.append_assoc, hk] at g1
      rw [l1] at g2
      have fin : ∀ (x : Result × Asked σ), x.2.asked = u.2.asked →
          (∃ ts', x.2.read = u.2.read ++ ts') →
          l.1.1.store.finalized.slot.toNat ≤ x.1.1.store.finalized.slot.toNat →
          ∃ ks slot period, x.2.asked = s.asked ++ ks ∧ ks ≠ [] ∧
            ks <+: [ContentKey.Beacon.finalityUpdate 0, .optimisticUpdate (UInt64.ofNat slot), .updatesByRange period 1] ∧
            (3 ≤ ks.length → c.store.finalized.slot.toNat / 8192 ≤ period.toNat ∧
              period.toNat ≤ x.1.1.store.finalized.slot.toNat / 8192) ∧
            (x.1.2 = none → 2 ≤ ks.length ∧
              (∃ ts, x.2.read = s.read ++ ts ∧ ∃ t ∈ ts, slot = mainnetSlot t) ∧
              (x.1.1.store.next = none → ks.length = 3)) := by
        intro x hx ⟨ts', hr⟩ hf
        refine ⟨_, mainnetSlot t, p, hx.trans g1, by simp, ⟨[], by simp⟩, fun _ => ⟨hrange, ?_⟩, fun _ => ⟨by simp, ?_, by simp⟩⟩
        · rw [hper]; exact Nat.div_le_div_right hf
        · exact ⟨ts ++ [t, t'] ++ ts', by rw [hr, g2]; simp, t, by simp, rfl⟩
      split
      · exact fin ((l.1.1, some _), u.2) rfl ⟨[], by simp⟩ (Nat.le_refl _)
      · next m hm =>
        obtain ⟨q1, q2⟩ := processNow_asked (env := env) (cfg := cfg) (w := w) l.1.1 m u.2
        have q3 : l.1.1.store.finalized.slot.toNat ≤
            (processNow env cfg (portalRpc w) l.1.1 m u.2).1.1.store.finalized.slot.toNat := by
          simp only [processNow]
          split
          · exact Nat.le_refl _
          · split
            · exact Nat.le_refl _
            · next c' hp =>
              obtain ⟨-, rfl⟩ := (LightClient.process_iff env cfg _ _ c' m).mp hp
              exact (C40_apply env _ m).finalized
        generalize processNow env cfg (portalRpc w) l.1.1 m u.2 = v at q1 q2 q3
        split
        · exact fin v q1 ⟨_, q2⟩ q3
        · exact fin ((v.1.1, none), v.2) q1 ⟨_, q2⟩ q3
      · exact fin ((l.1.1, none), u.2) rfl ⟨[], by simp⟩ (Nat.le_refl _)
    · next hnone =>
      refine ⟨ks, mainnetSlot t, 0, l4, l3, hpre 0, fun h => by omega, fun _ => ⟨by rw [hk]; simp, ⟨ts ++ [t, t'],
        by rw [l1, List.append_assoc], t, by simp, rfl⟩, fun h => ?_⟩⟩
      rw [h] at hnone
      exact absurd rfl hnone

end

/-! ## The client of the beacon network -/

section
variable {env : Env} {web : Web σ}

/-- A start of a client that does not look at ages and has no server. -/
theorem Node.start_plain (n : Node σ) (hr : Plain n.rpc) (hs : n.settings.strict = false) (hp : n.settings.rpcPort = none)
    (s : σ) : n.start env web s =
      ((match (n.sync env s).1.1 with
        | none => (none, (n.sync env s).1.2.spawn)
        | some f => (some f, (n.sync env s).1.2)), (n.sync env s).2) := by
  have ht : (n.sync env s).1.1 ≠ some .tooOld := fun h => by
    have := n.sync_tooOld hr s h
    rw [hs] at this
    cases this
  simp only [Node.start, hp, Option.isSome_none, Bool.false_eq_true, if_false, Bool.true_eq_false]
  generalize n.sync env s = x at ht
  split
  · next h => simp [h]
  · next h => exact absurd h ht
  · next f _ h => simp [h]

theorem Node.start_plain_fields (n : Node σ) (hr : Plain n.rpc) (hs : n.settings.strict = false)
    (hp : n.settings.rpcPort = none) (s : σ) :
    (n.start env web s).1.2.settings = n.settings ∧ (n.start env web s).1.2.rpc = n.rpc ∧
    (n.start env web s).1.2.checkpoint = n.checkpoint := by
  obtain ⟨h1, h2, h3, -⟩ := n.sync_fields (env := env) s
  rw [n.start_plain hr hs hp]
  generalize n.sync env s = x at h1 h2 h3
  simp only
  split
  · exact ⟨h1, h2, h3⟩
  · exact ⟨h1, h2, h3⟩

theorem Tries.cons {n m m' : Node σ} {s t t' : σ} {f : Fail} {k : Nat} (h : n.start env web s = ((some f, m'), t'))
    (hf : f ≠ .abort) (ht : Tries env web m' (web.sleep 10 t') k m t) : Tries env web n s (k + 1) m t := by
  induction ht with
  | none => exact .more .none h hf
  | more _ h1 h2 ih => exact .more ih h1 h2

theorem attempts_spec (k : Nat) (n : Node σ) (s : σ) :
    ∃ j n' t, Tries env web n s j n' t ∧
      ((j = k ∧ attempts env web k n s = ((some .other, n', k), t)) ∨
       (j < k ∧ ∃ m t', n'.start env web t = ((none, m), t') ∧ attempts env web k n s = ((none, m, j + 1), t')) ∨
       (j < k ∧ ∃ m t', n'.start env web t = ((some .abort, m), t') ∧
          attempts env web k n s = ((some .abort, m, j + 1), t'))) := by
  induction k generalizing n s with
  | zero => exact ⟨0, n, s, .none, Or.inl ⟨rfl, rfl⟩⟩
  | succ k ih =>
    have key : ∀ x, n.start env web s = x → ∃ j n' t, Tries env web n s j n' t ∧
      ((j = k + 1 ∧ attempts env web (k + 1) n s = ((some .other, n', k + 1), t)) ∨
       (j < k + 1 ∧ ∃ m t', n'.start env web t = ((none, m), t') ∧ attempts env web (k + 1) n s = ((none, m, j + 1), t')) ∨
       (j < k + 1 ∧ ∃ m t', n'.start env web t = ((some .abort, m), t') ∧
          attempts env web (k + 1) n s = ((some .abort, m, j + 1), t'))) := by
      rintro ⟨⟨f, m⟩, t'⟩ hx
      have hgo : ∀ f, f ≠ Fail.abort → n.start env web s = ((some f, m), t') →
          attempts env web (k + 1) n s = (((attempts env web k m (web.sleep 10 t')).1.1,
            (attempts env web k m (web.sleep 10 t')).1.2.1, (attempts env web k m (web.sleep 10 t')).1.2.2 + 1),
            (attempts env web k m (web.sleep 10 t')).2) := by
        intro f hf hx
        cases f <;> first | exact absurd rfl hf | simp only [attempts, hx]
      cases f with
      | none => exact ⟨0, n, s, .none, Or.inr (Or.inl ⟨by omega, m, t', hx, by simp only [attempts, hx]⟩)⟩
      | some f =>
        by_cases hf : f = .abort
        · subst hf
          exact ⟨0, n, s, .none, Or.inr (Or.inr ⟨by omega, m, t', hx, by simp only [attempts, hx]⟩)⟩
        · obtain ⟨j, n', t, h1, h2⟩ := ih m (web.sleep 10 t')
          have he := hgo f hf hx
          refine ⟨j + 1, n', t, Tries.cons hx hf h1, ?_⟩
          rcases h2 with ⟨rfl, h⟩ | ⟨hj, m', t'', hm, h⟩ | ⟨hj, m', t'', hm, h⟩
          · exact Or.inl ⟨rfl, by rw [he, h]⟩
          · exact Or.inr (Or.inl ⟨by omega, m', t'', hm, by rw [he, h]⟩)
          · exact Or.inr (Or.inr ⟨by omega, m', t'', hm, by rw [he, h]⟩)
    exact key _ rfl

theorem beaconSync_eq (rpc : Rpc σ) (root : Id) (file : Option Bytes) (s : σ) :
    beaconSync env web rpc root file s =
      (((attempts env web 10 (freshNode rpc root) s).1.1, some (attempts env web 10 (freshNode rpc root) s).1.2.1,
        (attempts env web 10 (freshNode rpc root) s).1.2.2), (attempts env web 10 (freshNode rpc root) s).2) := rfl

theorem tries_fields {rpc : Rpc σ} (hr : Plain rpc) (root : Id) {s t : σ} {j : Nat} {m : Node σ}
    (h : Tries env web (freshNode rpc root) s j m t) :
    m.settings = (freshNode rpc root).settings ∧ m.rpc = rpc ∧ m.checkpoint = root ∧ m.threads = 0 := by
  induction h with
  | none => exact ⟨rfl, rfl, rfl, rfl⟩
  | @more k m m' t t' f _ hs _ ih =>
    obtain ⟨h1, h2, h3, h4⟩ := ih
    have f1 := m.start_plain_fields (env := env) (web := web) (by rw [h2]; exact hr) (by rw [h1]; rfl) (by rw [h1]; rfl) t
    have f2 := (m.start_fields (env := env) (web := web) t).2
    rw [hs] at f1 f2
    refine ⟨f1.1.trans h1, f1.2.1.trans h2, f1.2.2.trans h3, ?_⟩
    simpa [h4] using f2

/-- After a success: where the node comes from. -/
theorem beaconSync_ok {rpc : Rpc σ} (hr : Plain rpc) (root : Id) (file : Option Bytes) (s s' : σ) (n : Node σ) (k : Nat)
    (h : beaconSync env web rpc root file s = ((none, some n, k), s')) :
    ∃ m t, Tries env web (freshNode rpc root) s (k - 1) m t ∧ 1 ≤ k ∧ k ≤ 10 ∧
      m.start env web t = ((none, n), s') ∧
      m.settings = (freshNode rpc root).settings ∧ m.rpc = rpc ∧ m.checkpoint = root ∧ m.threads = 0 ∧
      n.settings = (freshNode rpc root).settings ∧ n.rpc = rpc ∧ n.checkpoint = root ∧ n.threads = 1 := by
  rw [beaconSync_eq] at h
  obtain ⟨j, m, t, h1, h2⟩ := attempts_spec (env := env) (web := web) 10 (freshNode rpc root) s
  rcases h2 with ⟨rfl, e⟩ | ⟨hj, m', t', hm, e⟩ | ⟨hj, m', t', hm, e⟩
  · rw [e] at h; cases h
  · rw [e] at h
    cases h
    obtain ⟨g1, g2, g3, g4⟩ := tries_fields hr root h1
    have f1 := m.start_plain_fields (env := env) (web := web) (by rw [g2]; exact hr) (by rw [g1]; rfl) (by rw [g1]; rfl) t
    have f2 := (m.start_fields (env := env) (web := web) t).2
    rw [hm] at f1 f2
    exact ⟨m, t, h1, Nat.succ_le_succ (Nat.zero_le _), hj, hm, g1, g2, g3, g4, f1.1.trans g1, f1.2.1.trans g2, f1.2.2.trans g3, by
      simpa [g4] using f2⟩
  · rw [e] at h; cases h

/-- What holds for an accepted bootstrap and is kept holds after a success, and after any number of turns. -/
theorem Node.turns_keeps {n : Node σ} {P : σ → Client → Prop} (K : Keeps env (n.settings.config n.checkpoint) n.rpc P)
    (k : Nat) (s : σ) (h : P s n.client) :
    P (n.turns env k s).2 (n.turns env k s).1.1.client := by
  induction k generalizing n s with
  | zero => exact h
  | succ k ih =>
    have h1 := advance_keeps K n.client s h
    have e : (n.turn env s).2 = (advance env (n.settings.config n.checkpoint) n.rpc n.client s).2 := rfl
    have e' : (n.turn env s).1.1 =
      { n with client := (advance env (n.settings.config n.checkpoint) n.rpc n.client s).1.1 } := rfl
    simp only [Node.turns]
    split
    · rw [e, e']
      exact ih (n := { n with client := (advance env (n.settings.config n.checkpoint) n.rpc n.client s).1.1 }) K _ h1
    · rw [e, e']
      exact h1

theorem start_keeps {n n' : Node σ} {t t' : σ} (hr : Plain n.rpc) (hs : n.settings.strict = false)
    (hp : n.settings.rpcPort = none) (h : n.start env web t = ((none, n'), t')) (P : σ → Client → Prop)
    (K : Keeps env (n.settings.config n.checkpoint) n.rpc P)
    (hb : ∀ s0 b now c0, (n.rpc.bootstrap n.checkpoint s0).1 = .ok b →
      slotAt n.settings.genesisTime (n.rpc.clock (n.rpc.bootstrap n.checkpoint s0).2).1 = some now →
      LightClient.bootstrap env (n.settings.config n.checkpoint) now n.client b = .ok c0 →
      P (n.rpc.clock (n.rpc.bootstrap n.checkpoint s0).2).2 c0) :
    P t' n'.client := by
  rw [n.start_plain hr hs hp] at h
  rcases n.sync_eq (env := env) t with h1 | ⟨x, hx, h1⟩
  · rw [h1] at h; cases h
  · rw [h1] at h
    obtain ⟨⟨c, f⟩, u⟩ := x
    cases f with
    | some f => cases h
    | none =>
      cases h
      have hc := sync_cases (env := env) (cfg := n.settings.config n.checkpoint) (r := n.rpc) n.settings.genesisTime n.client
        (n.rpc.chainId t).2
      rw [hx] at hc
      rcases hc with hc | ⟨b, now, c0, g1, g2, g3, g4⟩
      · exact absurd rfl hc.2.1
      · exact g4 P K (hb _ b now c0 g1 g2 g3)

end

/-! ## Time -/

theorem applyUpdate_optimistic_le (s : LightClient.Store) (u : LightClient.Update) (k : Nat)
    (h : s.optimistic.slot.toNat ≤ k) (ha : u.attested.slot.toNat ≤ k) (hf : u.finalizedSlot ≤ k) :
    (LightClient.applyUpdate s u).optimistic.slot.toNat ≤ k := by
  have h1 : (LightClient.applyOptimistic s u).optimistic.slot.toNat ≤ k := by
    rw [LightClient.applyOptimistic_optimistic]
    split <;> assumption
  simp only [LightClient.applyUpdate]
  split
  · have h2 := (LightClient.applyCommittees_fields (LightClient.applyOptimistic s u) u).2
    rw [← h2] at h1
    generalize LightClient.applyCommittees (LightClient.applyOptimistic s u) u = x at h1
    simp only [LightClient.applyFinalized]
    split
    · exact h1
    · next f hfe =>
      have : u.finalizedSlot = f.slot.toNat := by simp [LightClient.Update.finalizedSlot, hfe]
      split
      · simp only
        split
        · omega
        · exact h1
      · exact h1
  · exact h1

theorem slotAt_some {g t now : Nat} (h : slotAt g t = some now) : g ≤ t ∧ now = (t - g) / 12 := by
  simp only [slotAt] at h
  split at h
  · cases h
  · cases h; exact ⟨by omega, rfl⟩

/-- The client is not ahead of the clock. -/
def Timely (time : σ → Nat) (s : σ) (c : Client) : Prop :=
  beaconGenesis ≤ time s ∧ c.store.optimistic.slot.toNat ≤ (time s - beaconGenesis) / 12

theorem Timely.mono {time : σ → Nat} {s s' : σ} {c : Client} (h : Timely time s c) (hs : time s ≤ time s') :
    Timely time s' c :=
  ⟨Nat.le_trans h.1 hs, Nat.le_trans h.2 (Nat.div_le_div_right (Nat.sub_le_sub_right hs _))⟩

theorem timely_keeps (env : Env) (cfg : LightClient.Config) {r : Rpc σ} {time : σ → Nat} (hs : Steady r time) :
    Keeps env cfg r (Timely time) where
  updates p n s c h := h.mono (hs.updates p n s)
  finality s c h := h.mono (hs.finality s)
  optimistic s c h := h.mono (hs.optimistic s)
  clock s c h := h.mono (hs.clock s)
  process := by
    intro s c c' m now h _ hn hp
    obtain ⟨hv, rfl⟩ := (LightClient.process_iff env cfg now c c' m).mp hp
    obtain ⟨g1, rfl⟩ := slotAt_some hn
    have hshown := hs.shown s
    have h0 := h.mono (hs.clock s)
    have htime := hv.time
    have ht2 := hv.attested
    have ht3 := hv.finalized
    have hle : ((r.clock s).1 - beaconGenesis) / 12 ≤ (time (r.clock s).2 - beaconGenesis) / 12 :=
      Nat.div_le_div_right (Nat.sub_le_sub_right hshown _)
    refine ⟨h0.1, ?_⟩
    rw [LightClient.applyMsg_store]
    refine applyUpdate_optimistic_le _ _ _ h0.2 ?_ ?_ <;> omega

/-! ## Panics of the verification -/

theorem verify_no_panic (env : Env) (cfg : LightClient.Config) (now : Nat) (s : LightClient.Store) (u : LightClient.Update)
    (hc : ∀ k ∈ s.current.pubkeys, env.keyOk k = true)
    (hn : ∀ c, s.next = some c → ∀ k ∈ c.pubkeys, env.keyOk k = true) :
    LightClient.verify env cfg now s u ≠ .error .panic := by
  simp only [LightClient.verify]
  split; · simp
  split; · simp
  split; · simp
  next hper =>
  split; · simp
  split; · simp
  split; · simp
  have hcom : ∃ c, LightClient.signingCommittee s u = some c ∧ ∀ k ∈ c.pubkeys, env.keyOk k = true := by
    simp only [LightClient.signingCommittee]
    split
    · exact ⟨_, rfl, hc⟩
    · next hne =>
      rcases Decidable.not_not.mp hper with h | ⟨h, -⟩
      · exact absurd h hne
      · obtain ⟨c, hcs⟩ := Option.isSome_iff_exists.mp h
        exact ⟨c, hcs, hn c hcs⟩
  obtain ⟨c, h1, h2⟩ := hcom
  rw [h1]
  simp only [LightClient.checkSignature]
  have hall : (LightClient.participatingKeys c u.bits).all env.keyOk = true := by
    rw [List.all_eq_true]
    intro k hk
    simp only [LightClient.participatingKeys, List.mem_map, List.mem_filter] at hk
    obtain ⟨⟨k', b⟩, ⟨hz, -⟩, rfl⟩ := hk
    exact h2 _ (List.of_mem_zip hz).1
  rw [hall]
  simp only [Bool.true_eq_false, if_false]
  split <;> simp

/-! ## Following the chain -/

section
variable {env : Env} {web : Web σ}

/-- Any start of such a client: nothing changes, or it goes on from a bootstrap. -/
theorem start_cases (n : Node σ) (hr : Plain n.rpc) (hs : n.settings.strict = false) (hp : n.settings.rpcPort = none)
    (t : σ) : (n.start env web t).1.2.client = n.client ∨
      ∃ s0 b now c0, (n.rpc.bootstrap n.checkpoint s0).1 = .ok b ∧
        LightClient.bootstrap env (n.settings.config n.checkpoint) now n.client b = .ok c0 ∧
        ∀ P : Client → Prop, Keeps env (n.settings.config n.checkpoint) n.rpc (fun _ => P) → P c0 →
          P (n.start env web t).1.2.client := by
  rw [n.start_plain hr hs hp]
  rcases n.sync_eq (env := env) t with h1 | ⟨x, hx, h1⟩
  · rw [h1]; exact Or.inl rfl
  · rw [h1]
    have hcl : ((match x.1.2 with
        | none => (none, ({ n with client := x.1.1 } : Node σ).spawn)
        | some f => (some f, { n with client := x.1.1 })) : Option Fail × Node σ).2.client = x.1.1 := by
      split <;> rfl
    simp only at hcl ⊢
    rw [hcl]
    have hc := sync_cases (env := env) (cfg := n.settings.config n.checkpoint) (r := n.rpc) n.settings.genesisTime n.client
      (n.rpc.chainId t).2
    rw [hx] at hc
    rcases hc with hc | ⟨b, now, c0, g1, g2, g3, g4⟩
    · exact Or.inl hc.1
    · exact Or.inr ⟨_, b, now, c0, g1, g3, fun P K h0 => g4 (fun _ => P) K h0⟩

theorem follows_keeps {ch : Chain} {r : Rpc σ} {root : Id} (ht : Trusted env ch r root) :
    Keeps env (mainnetConfig root) r fun _ c => Follows ch c ∧ GoodCheckpoint env ch c where
  updates _ _ _ _ h := h
  finality _ _ h := h
  optimistic _ _ h := h
  clock _ _ h := h
  process := by
    intro s c c' m now ⟨h1, h2⟩ hg _ hp
    have hf := C41_step env (mainnetConfig root) ch now c c' m h1 (ht.messages m hg) hp
    refine ⟨hf, ?_⟩
    obtain ⟨-, rfl⟩ := (LightClient.process_iff env _ now c c' m).mp hp
    have hk := C41_checkpoint_step env c m
    by_cases hm : c.store.finalized.slot.toNat < (LightClient.applyMsg env c m).store.finalized.slot.toNat ∧
        32 ∣ (LightClient.applyMsg env c m).store.finalized.slot.toNat
    · exact Or.inr ⟨_, hf.finalized, hm.2, hk.1 hm.1 hm.2⟩
    · rcases h2 with h2 | ⟨h, a, b, h2⟩
      · exact Or.inl ((hk.2 hm).trans h2)
      · exact Or.inr ⟨h, a, b, (hk.2 hm).trans h2⟩

theorem bootstrap_follows {ch : Chain} {r : Rpc σ} {root : Id} (ht : Trusted env ch r root) (s0 : σ) (b : Bootstrap)
    (now : Nat) (c c0 : Client) (hb : (r.bootstrap root s0).1 = .ok b)
    (h : LightClient.bootstrap env (mainnetConfig root) now c b = .ok c0) (hg : GoodCheckpoint env ch c) :
    Follows ch c0 ∧ GoodCheckpoint env ch c0 := by
  obtain ⟨-, h2, h3, rfl⟩ := bootstrap_ok _ _ _ _ _ _ h
  have hh := ht.bootstrap s0 b hb
  have hcan := hh.header h2
  exact ⟨⟨hcan, hh.committee hcan h3, fun n hn => (nomatch hn)⟩, hg⟩

theorem tries_checkpoint {ch : Chain} {rpc : Rpc σ} {root : Id} (hr : Plain rpc) (ht : Trusted env ch rpc root) {s t : σ}
    {j : Nat} {m : Node σ} (h : Tries env web (freshNode rpc root) s j m t) : GoodCheckpoint env ch m.client := by
  induction h with
  | none => exact Or.inl rfl
  | @more k m m' t t' f hm hs _ ih =>
    obtain ⟨h1, h2, h3, h4⟩ := tries_fields hr root hm
    have hcfg : m.settings.config m.checkpoint = mainnetConfig root := by rw [h1, h3]; rfl
    have hc := start_cases (env := env) (web := web) m (by rw [h2]; exact hr) (by rw [h1]; rfl) (by rw [h1]; rfl) t
    rw [hs, hcfg, h2, h3] at hc
    rcases hc with hc | ⟨s0, b, now, c0, g1, g2, g3⟩
    · rw [show m'.client = m.client from hc]; exact ih
    · exact (g3 (fun c => Follows ch c ∧ GoodCheckpoint env ch c) (follows_keeps ht)
        (bootstrap_follows ht s0 b now m.client c0 g1 g2 ih)).2

/-! ## The thread -/

theorem processNow_alive (cfg : LightClient.Config) (r : Rpc σ) (hu : Unfailing r) (c : Client) (m : Msg) (s : σ)
    (hc : ∀ k ∈ c.store.current.pubkeys, env.keyOk k = true)
    (hn : ∀ n, c.store.next = some n → ∀ k ∈ n.pubkeys, env.keyOk k = true) :
    (processNow env cfg r c m s).1.2 ≠ some .abort := by
  simp only [processNow, slotNow]
  split
  · next h =>
    have := hu.clock s
    rw [slotAt, if_neg (by unfold beaconGenesis; omega)] at h
    cases h
  · split
    · next e he =>
      intro h
      have hpanic : e = .panic := by cases e <;> first | rfl | (simp [failOf] at h)
      subst hpanic
      simp only [LightClient.process] at he
      split at he
      · next e' hv => cases he; exact verify_no_panic env cfg _ _ _ hc hn hv
      · cases he
    · simp

/-- One advance of a client on the chain does not end the thread. -/
theorem advance_alive {ch : Chain} {r : Rpc σ} {root : Id} (ht : Trusted env ch r root) (hu : Unfailing r)
    (hk : ∀ p, ∀ k ∈ (ch.committee p).pubkeys, env.keyOk k = true) (c : Client) (s : σ)
    (hc : Follows ch c ∧ GoodCheckpoint env ch c) : (advance env (mainnetConfig root) r c s).1.2 ≠ some .abort := by
  have K := follows_keeps ht
  have keys : ∀ c, Follows ch c ∧ GoodCheckpoint env ch c →
      (∀ k ∈ c.store.current.pubkeys, env.keyOk k = true) ∧
      ∀ n, c.store.next = some n → ∀ k ∈ n.pubkeys, env.keyOk k = true := by
    intro c h
    refine ⟨by rw [h.1.current]; exact hk _, fun n hn => ?_⟩
    rw [h.1.next n hn]
    exact hk _
  have h1 : (latestFinality env (mainnetConfig root) r c s).1.2 ≠ some .abort := by
    simp only [latestFinality]
    split
    · exact processNow_alive _ _ hu _ _ _ (keys c hc).1 (keys c hc).2
    · next h => exact absurd h (hu.finality s)
    · simp
  have hc1 := latestFinality_keeps K c s hc
  have h2 : (latest env (mainnetConfig root) r c s).1.2 ≠ some .abort := by
    simp only [latest]
    split
    · next e he => rw [← he]; exact h1
    · generalize latestFinality env (mainnetConfig root) r c s = x at hc1
      simp only [latestOptimistic]
      split
      · next e he => intro h; cases h; exact hu.optimistic _ he
      · exact processNow_alive _ _ hu _ _ _ (keys _ hc1).1 (keys _ hc1).2
  have hc2 := latest_keeps K c s hc
  simp only [advance]
  generalize latest env (mainnetConfig root) r c s = x at h2 hc2
  split
  · next e he => rw [← he]; exact h2
  · split
    · split
      · next e he => intro h; cases h; exact hu.updates _ _ _ he
      · next m hm =>
        have := processNow_alive (mainnetConfig root) r hu x.1.1 m
          (r.updates (UInt64.ofNat (LightClient.syncPeriod x.1.1.store.finalized.slot.toNat)) 1 x.2).2
          (keys _ hc2).1 (keys _ hc2).2
        split
        · next h => exact absurd h this
        · simp
      · simp
    · exact h2

theorem turns_alive {ch : Chain} {root : Id} (n : Node σ) (ht : Trusted env ch n.rpc root) (hu : Unfailing n.rpc)
    (hk : ∀ p, ∀ k ∈ (ch.committee p).pubkeys, env.keyOk k = true)
    (hcfg : n.settings.config n.checkpoint = mainnetConfig root) (k : Nat) (s : σ)
    (hc : Follows ch n.client ∧ GoodCheckpoint env ch n.client) : (n.turns env k s).1.2 = true := by
  induction k generalizing n s with
  | zero => rfl
  | succ k ih =>
    have h1 := advance_alive ht hu hk n.client s hc
    have h2 := advance_keeps (follows_keeps ht) n.client s hc
    rw [← hcfg] at h1 h2
    have hflag : (n.turn env s).1.2 = true := by
      simp only [Node.turn, bne_iff_ne, ne_eq]
      exact h1
    simp only [Node.turns, hflag, if_true]
    exact ih { n with client := (advance env (n.settings.config n.checkpoint) n.rpc n.client s).1.1 } ht hu hcfg _ h2

theorem turns_fields (n : Node σ) (k : Nat) (s : σ) : (n.turns env k s).1.1.settings = n.settings ∧
    (n.turns env k s).1.1.rpc = n.rpc ∧ (n.turns env k s).1.1.checkpoint = n.checkpoint ∧
    (n.turns env k s).1.1.threads = n.threads := by
  induction k generalizing n s with
  | zero => exact ⟨rfl, rfl, rfl, rfl⟩
  | succ k ih =>
    simp only [Node.turns]
    split
    · have := ih (n.turn env s).1.1 (n.turn env s).2
      exact this
    · exact ⟨rfl, rfl, rfl, rfl⟩

end

end Verif.LightNode
