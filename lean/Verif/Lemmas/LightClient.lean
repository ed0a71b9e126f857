import Verif.Model.LightClient
import Verif.Lemmas.Merkle
import Verif.Props.MerkleSpec
import Verif.Lemmas.Bytes

namespace Verif.LightClient
open Verif.Merkle Verif.HeaderValidator

theorem syncPeriod_eq (s : Nat) : syncPeriod s = s / 8192 := by
  rw [syncPeriod, Nat.div_div_eq_div_mul]

theorem syncPeriod_mono {a b : Nat} (h : a ≤ b) : syncPeriod a ≤ syncPeriod b := by
  rw [syncPeriod_eq, syncPeriod_eq]; omega

/-- Everything an accepted update satisfies. -/
structure Verified (env : Env) (cfg : Config) (now : Nat) (s : Store) (u : Update) : Prop where
  bits : 0 < countBits u.bits
  time : u.signatureSlot ≤ now
  attested : u.attested.slot.toNat < u.signatureSlot
  finalized : u.finalizedSlot ≤ u.attested.slot.toNat
  period : syncPeriod u.signatureSlot = syncPeriod s.finalized.slot.toNat ∨
    (s.next.isSome = true ∧ syncPeriod u.signatureSlot = syncPeriod s.finalized.slot.toNat + 1)
  relevant : u.attested.slot.toNat > s.finalized.slot.toNat ∨
    (s.next.isNone = true ∧ u.nextCommittee.isSome = true ∧
      syncPeriod u.attested.slot.toNat = syncPeriod s.finalized.slot.toNat)
  finalityProof : checkFinality env u = true
  nextProof : checkNext env u = true
  signature : ∃ c, signingCommittee s u = some c ∧ checkSignature env cfg c u = .ok ()

theorem verify_iff (env : Env) (cfg : Config) (now : Nat) (s : Store) (u : Update) :
    verify env cfg now s u = .ok () ↔ Verified env cfg now s u := by
  unfold verify
  constructor
  · intro h
    simp only at h
    split at h
    · cases h
    · next h1 =>
    split at h
    · cases h
    · next h2 =>
    split at h
    · cases h
    · next h3 =>
    split at h
    · cases h
    · next h4 =>
    split at h
    · cases h
    · next h5 =>
    split at h
    · cases h
    · next h6 =>
    split at h
    · cases h
    · next c hc =>
      have h2 := Decidable.not_not.mp h2
      have h3 := Decidable.not_not.mp h3
      have h4 := Decidable.not_not.mp h4
      exact ⟨by omega, h2.1, h2.2.1, h2.2.2, h3, h4, by simpa using h5, by simpa using h6, c, hc, h⟩
  · rintro ⟨h1, h2a, h2b, h2c, h3, h4, h5, h6, c, hc, hs⟩
    simp only
    rw [if_neg (by omega), if_neg (Decidable.not_not.mpr ⟨h2a, h2b, h2c⟩), if_neg (Decidable.not_not.mpr h3),
      if_neg (Decidable.not_not.mpr h4), if_neg (by simp [h5]), if_neg (by simp [h6]), hc]
    exact hs

theorem applyOptimistic_fields (s : Store) (u : Update) :
    (applyOptimistic s u).finalized = s.finalized ∧ (applyOptimistic s u).current = s.current ∧
    (applyOptimistic s u).next = s.next ∧ (applyOptimistic s u).previousMax = s.previousMax ∧
    (applyOptimistic s u).currentMax = max s.currentMax (countBits u.bits) := by
  simp only [applyOptimistic]
  split <;> exact ⟨rfl, rfl, rfl, rfl, rfl⟩

theorem applyOptimistic_optimistic (s : Store) (u : Update) :
    (applyOptimistic s u).optimistic =
      if countBits u.bits > max (max s.currentMax (countBits u.bits)) s.previousMax / 2 ∧
        u.attested.slot.toNat > s.optimistic.slot.toNat then u.attested else s.optimistic := by
  simp only [applyOptimistic]
  split <;> rfl

theorem applyCommittees_fields (s : Store) (u : Update) :
    (applyCommittees s u).finalized = s.finalized ∧ (applyCommittees s u).optimistic = s.optimistic := by
  simp only [applyCommittees]
  split
  · exact ⟨rfl, rfl⟩
  · split <;> exact ⟨rfl, rfl⟩

theorem applyFinalized_fields (s : Store) (u : Update) :
    (applyFinalized s u).current = s.current ∧ (applyFinalized s u).next = s.next := by
  simp only [applyFinalized]
  split
  · exact ⟨rfl, rfl⟩
  · split <;> exact ⟨rfl, rfl⟩

/-- The finalized header of an applied update. -/
theorem applyUpdate_finalized (s : Store) (u : Update) :
    (applyUpdate s u).finalized = s.finalized ∨
    (∃ f, u.finalized = some f ∧ (applyUpdate s u).finalized = f ∧
      f.slot.toNat > s.finalized.slot.toNat ∧ countBits u.bits * 3 ≥ 512 * 2 ∧
      shouldApply (applyOptimistic s u) u = true) := by
  simp only [applyUpdate]
  have h1 := (applyOptimistic_fields s u).1
  split
  · next hs =>
    have h2 := (applyCommittees_fields (applyOptimistic s u) u).1
    cases hf : u.finalized with
    | none =>
      left
      simp only [applyFinalized, hf]
      rw [h2, h1]
    | some f =>
      by_cases hgt : f.slot.toNat > s.finalized.slot.toNat
      · right
        refine ⟨f, rfl, ?_, hgt, ?_, hs⟩
        · simp only [applyFinalized, hf]
          rw [h2, h1, if_pos hgt]
        · simp only [shouldApply, Bool.and_eq_true, decide_eq_true_eq] at hs
          exact hs.1
      · left
        simp only [applyFinalized, hf]
        rw [h2, h1, if_neg hgt, h2, h1]
  · left; exact h1

theorem applyUpdate_monotone (s : Store) (u : Update) :
    s.finalized.slot.toNat ≤ (applyUpdate s u).finalized.slot.toNat := by
  rcases applyUpdate_finalized s u with h | ⟨f, _, h, hgt, _⟩
  · rw [h]; exact Nat.le_refl _
  · rw [h]; omega

theorem applyOptimistic_monotone (s : Store) (u : Update) :
    s.optimistic.slot.toNat ≤ (applyOptimistic s u).optimistic.slot.toNat := by
  rw [applyOptimistic_optimistic]
  split <;> omega

theorem applyFinalized_optimistic (s : Store) (u : Update) :
    s.optimistic.slot.toNat ≤ (applyFinalized s u).optimistic.slot.toNat ∧
    (s.finalized.slot.toNat ≤ s.optimistic.slot.toNat →
      (applyFinalized s u).finalized.slot.toNat ≤ (applyFinalized s u).optimistic.slot.toNat) := by
  simp only [applyFinalized]
  split
  · exact ⟨Nat.le_refl _, id⟩
  · split
    · simp only
      split
      · exact ⟨by omega, fun _ => Nat.le_refl _⟩
      · exact ⟨Nat.le_refl _, fun _ => by omega⟩
    · exact ⟨Nat.le_refl _, id⟩

theorem applyUpdate_optimistic (s : Store) (u : Update) :
    s.optimistic.slot.toNat ≤ (applyUpdate s u).optimistic.slot.toNat ∧
    (s.finalized.slot.toNat ≤ s.optimistic.slot.toNat →
      (applyUpdate s u).finalized.slot.toNat ≤ (applyUpdate s u).optimistic.slot.toNat) := by
  have h1 := applyOptimistic_monotone s u
  have h2 := (applyOptimistic_fields s u).1
  simp only [applyUpdate]
  split
  · have h3 := applyCommittees_fields (applyOptimistic s u) u
    have h4 := applyFinalized_optimistic (applyCommittees (applyOptimistic s u) u) u
    rw [h3.1, h3.2, h2] at h4
    exact ⟨by omega, fun h => h4.2 (by omega)⟩
  · exact ⟨h1, fun h => by rw [h2]; omega⟩

theorem applyMsg_store (env : Env) (c : Client) (m : Msg) :
    (applyMsg env c m).store = applyUpdate c.store m.generic := by
  cases m <;> simp only [applyMsg] <;> split <;> rfl

theorem process_iff (env : Env) (cfg : Config) (now : Nat) (c c' : Client) (m : Msg) :
    process env cfg now c m = .ok c' ↔ Verified env cfg now c.store m.generic ∧ c' = applyMsg env c m := by
  rw [← verify_iff]
  simp only [process]
  cases h : verify env cfg now c.store m.generic with
  | error e => simp
  | ok x =>
    cases x
    simp only [Except.ok.injEq, true_and]
    exact eq_comm

/-- Whatever one message preserves, `processAll`, `latest` and `advance` preserve. -/
theorem processAll_induct {env : Env} {cfg : Config} (P : Client → Prop) (ok : Nat × Msg → Prop)
    (hstep : ∀ c now m c', P c → ok (now, m) → process env cfg now c m = .ok c' → P c') :
    ∀ (us : List (Nat × Msg)) (c : Client), P c → (∀ u ∈ us, ok u) → P (processAll env cfg c us).1
  | [], c, h, _ => h
  | (now, m) :: rest, c, h, hok => by
    simp only [processAll]
    split
    · exact h
    · next c' hp =>
      exact processAll_induct P ok hstep rest c' (hstep c now m c' h (hok _ (by simp)) hp)
        fun u hu => hok u (List.mem_cons_of_mem _ hu)

theorem latest_induct {env : Env} {cfg : Config} (P : Client → Prop) (ok : Nat × Msg → Prop)
    (hstep : ∀ c now m c', P c → ok (now, m) → process env cfg now c m = .ok c' → P c')
    (c : Client) (f o : Option (Nat × Msg)) (h : P c) (hf : ∀ u ∈ f, ok u) (ho : ∀ u ∈ o, ok u) :
    P (latest env cfg c f o).1 := by
  have h1 := processAll_induct P ok hstep f.toList c h (fun u hu => hf u (by simpa using hu))
  simp only [latest]
  split
  · next c' heq => rw [heq] at h1; exact h1
  · next c' heq =>
    rw [heq] at h1
    split
    · exact h1
    · next u => exact processAll_induct P ok hstep [u] c' h1 (fun v hv => by
        rw [List.mem_singleton] at hv; subst hv; exact ho _ rfl)

/-- The messages of an input. -/
def AdvanceInput.msgs (i : AdvanceInput) : List (Nat × Msg) :=
  i.finality.toList ++ i.optimistic.toList ++ i.updates.getD []

def SyncInput.msgs (i : SyncInput) : List (Nat × Msg) :=
  i.updates.getD [] ++ i.finality.toList ++ i.optimistic.toList

theorem advance_induct {env : Env} {cfg : Config} (P : Client → Prop) (ok : Nat × Msg → Prop)
    (hstep : ∀ c now m c', P c → ok (now, m) → process env cfg now c m = .ok c' → P c')
    (c : Client) (i : AdvanceInput) (h : P c) (hok : ∀ u ∈ i.msgs, ok u) :
    P (advance env cfg c i).1 := by
  have h1 := latest_induct P ok hstep c i.finality i.optimistic h
    (fun u hu => hok u (by simp [AdvanceInput.msgs, Option.mem_def.mp hu]))
    (fun u hu => hok u (by simp [AdvanceInput.msgs, Option.mem_def.mp hu]))
  simp only [advance]
  split
  · next c' heq => rw [heq] at h1; exact h1
  · next c' heq =>
    rw [heq] at h1
    split
    · split
      · exact h1
      · next u hu =>
        exact processAll_induct P ok hstep [u] c' h1 (fun v hv => hok v (by
          simp [AdvanceInput.msgs, hu] at hv ⊢; simp [hv]))
      · exact h1
    · exact h1

theorem sync_induct {env : Env} {cfg : Config} (P : Client → Prop) (ok : Nat × Msg → Prop)
    (hstep : ∀ c now m c', P c → ok (now, m) → process env cfg now c m = .ok c' → P c')
    (c : Client) (i : SyncInput)
    (hboot : ∀ now b c', i.bootstrap = some (now, b) → bootstrap env cfg now c b = .ok c' → P c')
    (hok : ∀ u ∈ i.msgs, ok u) :
    P (sync env cfg c i).1 ∨ ((sync env cfg c i) = (c, false) ∧
      ∀ now b, i.bootstrap = some (now, b) → ∃ e, bootstrap env cfg now c b = .error e) := by
  simp only [sync]
  split
  · next hb => right; exact ⟨rfl, by simp [hb]⟩
  · next now b hb =>
    split
    · next e he =>
      right
      refine ⟨rfl, fun now' b' h => ?_⟩
      rw [hb] at h
      cases h
      exact ⟨e, he⟩
    · next c' hc =>
      left
      have h0 := hboot now b c' hb hc
      split
      · exact h0
      · next us hus =>
        have h1 := processAll_induct P ok hstep us c' h0
          (fun u hu => hok u (by simp [SyncInput.msgs, hus, hu]))
        split
        · next c'' heq => rw [heq] at h1; exact h1
        · next c'' heq =>
          rw [heq] at h1
          exact latest_induct P ok hstep c'' _ _ h1
            (fun u hu => hok u (by simp [SyncInput.msgs, Option.mem_def.mp hu]))
            (fun u hu => hok u (by simp [SyncInput.msgs, Option.mem_def.mp hu]))

/-! ## Roots -/

def headerLeaves (h : Header) : List Id :=
  [leNode h.slot.toNat, leNode h.proposerIndex.toNat, h.parentRoot, h.stateRoot, h.bodyRoot]

theorem headerRoot_eq (H : Id → Id → Id) (h : Header) :
    headerRoot H h = treeRoot H 3 fun i => (headerLeaves h).getD i 0 := rfl

theorem treeRoot_inj (H : Id → Id → Id) : ∀ (d : Nat) (f g : Nat → Id), treeRoot H d f = treeRoot H d g →
    (∀ i < 2 ^ d, f i = g i) ∨ CollisionBetween H (treePairs H d f) (treePairs H d g)
  | 0, f, g, h => Or.inl fun i hi => by
      have : i = 0 := by omega
      subst this
      exact h
  | d + 1, f, g, h => by
    simp only [treeRoot] at h
    by_cases he : (treeRoot H d f, treeRoot H d fun i => f (2 ^ d + i)) =
        (treeRoot H d g, treeRoot H d fun i => g (2 ^ d + i))
    · injection he with e1 e2
      rcases treeRoot_inj H d _ _ e1 with h1 | h1
      · rcases treeRoot_inj H d _ _ e2 with h2 | h2
        · left
          intro i hi
          by_cases hlt : i < 2 ^ d
          · exact h1 i hlt
          · have := h2 (i - 2 ^ d) (by rw [Nat.pow_succ] at hi; omega)
            simp only [show 2 ^ d + (i - 2 ^ d) = i by omega] at this
            exact this
        · right
          exact h2.mono (fun x hx => List.mem_cons_of_mem _ (List.mem_append_right _ hx))
            (fun x hx => List.mem_cons_of_mem _ (List.mem_append_right _ hx))
      · right
        exact h1.mono (fun x hx => List.mem_cons_of_mem _ (List.mem_append_left _ hx))
          (fun x hx => List.mem_cons_of_mem _ (List.mem_append_left _ hx))
    · exact Or.inr ⟨_, List.mem_cons_self, _, List.mem_cons_self, he, h⟩

theorem fromBe_inj {a b : Bytes} (hl : a.length = b.length) (h : fromBe a = fromBe b) : a = b := by
  rw [← toBe_fromBe a, ← toBe_fromBe b, hl, h]

theorem leNode_inj {a b : UInt64} (h : leNode a.toNat = leNode b.toNat) : a = b := by
  have h' := congrArg BitVec.toNat h
  simp only [leNode, BitVec.toNat_ofNat] at h'
  have l1 := fromBe_lt (toLe 32 a.toNat)
  have l2 := fromBe_lt (toLe 32 b.toNat)
  rw [toLe_length] at l1 l2
  rw [Nat.mod_eq_of_lt l1, Nat.mod_eq_of_lt l2] at h'
  have h1 : toLe 32 a.toNat = toLe 32 b.toNat := fromBe_inj (by rw [toLe_length, toLe_length]) h'
  have ha := a.toNat_lt
  have hb := b.toNat_lt
  have := congrArg fromLe h1
  rw [fromLe_toLe_of_lt (Nat.lt_trans ha (by decide)), fromLe_toLe_of_lt (Nat.lt_trans hb (by decide))] at this
  exact UInt64.toNat_inj.mp this

theorem chunk_inj {a b : Bytes} (hl : a.length = b.length) (h32 : a.length ≤ 32) (h : chunk a = chunk b) :
    a = b := by
  have h' := congrArg BitVec.toNat h
  simp only [chunk, BitVec.toNat_ofNat] at h'
  have l1 := fromBe_lt (a ++ List.replicate (32 - a.length) 0)
  have l2 := fromBe_lt (b ++ List.replicate (32 - b.length) 0)
  have e1 : (a ++ List.replicate (32 - a.length) (0 : UInt8)).length = 32 := by simp; omega
  have e2 : (b ++ List.replicate (32 - b.length) (0 : UInt8)).length = 32 := by simp; omega
  rw [e1] at l1
  rw [e2] at l2
  rw [Nat.mod_eq_of_lt l1, Nat.mod_eq_of_lt l2] at h'
  exact (List.append_inj (fromBe_inj (by rw [e1, e2]) h') hl).1

theorem key_ext {k l : Bytes} (hk : k.length = 48) (hl : l.length = 48)
    (h1 : chunk (k.take 32) = chunk (l.take 32)) (h2 : chunk (k.drop 32) = chunk (l.drop 32)) : k = l := by
  have e1 := chunk_inj (by simp [hk, hl]) (by simp; omega) h1
  have e2 := chunk_inj (by simp [hk, hl]) (by simp; omega) h2
  rw [← List.take_append_drop 32 k, e1, e2, List.take_append_drop]

end Verif.LightClient
