import Verif.Props.BeaconFlowSpec
import Verif.Props.BeaconNode
import Verif.Props.BeaconBridge
import Verif.Props.LightNode

/-! # How a light client comes to follow the chain -/

namespace Verif.Props.BeaconFlow
open Verif.BeaconValue Verif.BeaconValidator Verif.SszT Verif.Merkle Verif.LightNode
open Verif.LightClient hiding Update Bootstrap
open BeaconRules (FinalizedBy signers bit)

theorem count_bits (bs : BytesN 64) : countBits (bitsOf bs.1) = ((List.range 512).filter (bit bs.1)).length := by
  rw [countBits, bitsOf_eq, bs.2, List.count, List.countP_map, List.countP_eq_length_filter]
  congr 2
  funext i
  simp

theorem count_le (bs : BytesN 64) : countBits (bitsOf bs.1) ≤ 512 := by
  rw [count_bits]
  exact Nat.le_trans (List.length_filter_le _ _) (by simp)

theorem version (root : Id) (slot : Nat) (h : 364032 * 32 ≤ slot) : (LightLife.mainnetConfig root).forkVersion slot = [5, 0, 0, 0] := by
  simp only [Config.forkVersion, LightLife.mainnetConfig, List.find?_cons]
  rw [show decide (slot / 32 ≥ 364032) = true from decide_eq_true (by omega)]

/-- A signature by the committee of the chain passes. -/
theorem signature_ok {env : Env} {ch : Chain} {root : Id} {s : Store} {u : LightClient.Update} {h : Header} {agg : SyncAggregate}
    {slot : UInt64} (ha : Attested env ch h agg slot) (h1 : u.attested = h) (h2 : u.bits = bitsOf agg.bits.1)
    (h3 : u.signature = agg.signature.1) (h4 : u.signatureSlot = slot.toNat)
    (hc : (slot.toNat / 8192 = periodOf s.finalized ∧ s.current = ch.committee (slot.toNat / 8192)) ∨
      (slot.toNat / 8192 = periodOf s.finalized + 1 ∧ s.next = some (ch.committee (slot.toNat / 8192)))) :
    (syncPeriod u.signatureSlot = syncPeriod s.finalized.slot.toNat ∨
      (s.next.isSome = true ∧ syncPeriod u.signatureSlot = syncPeriod s.finalized.slot.toNat + 1)) ∧
    ∃ c, signingCommittee s u = some c ∧ checkSignature env (LightLife.mainnetConfig root) c u = .ok () := by
  have hsig : checkSignature env (LightLife.mainnetConfig root) (ch.committee (slot.toNat / 8192)) u = .ok () := by
    simp only [checkSignature, h1, h2, h3, h4, participatingKeys_eq, version root _ ha.electra]
    have hall : (signers (ch.committee (slot.toNat / 8192)) agg.bits.1).all env.keyOk = true := by
      rw [List.all_eq_true]
      intro k hk
      simp only [signers, List.mem_map, List.mem_filter] at hk
      obtain ⟨p, ⟨hz, -⟩, rfl⟩ := hk
      exact ha.keys _ (by rw [(List.mem_zipIdx' hz).2]; exact List.getElem_mem _)
    rw [hall, if_neg (by simp)]
    exact if_pos ha.signed
  rw [h4, syncPeriod_eq, syncPeriod_eq]
  rcases hc with ⟨e1, e2⟩ | ⟨e1, e2⟩
  · refine ⟨.inl e1, _, ?_, hsig⟩
    rw [signingCommittee, h4, syncPeriod_eq, syncPeriod_eq,
      if_pos (show slot.toNat / 8192 = s.finalized.slot.toNat / 8192 from e1), e2]
  · refine ⟨.inr ⟨by rw [e2]; rfl, e1⟩, _, ?_, hsig⟩
    have e1' : slot.toNat / 8192 = s.finalized.slot.toNat / 8192 + 1 := e1
    rw [signingCommittee, h4, syncPeriod_eq, syncPeriod_eq, if_neg (by omega), e2]

theorem some_bits {agg : SyncAggregate} (h : TwoThirds agg) : 0 < countBits (bitsOf agg.bits.1) := by
  rw [count_bits]
  simp only [TwoThirds] at h
  omega

/-! ## What an accepted message does to the store -/

/-- The committee that the store has for this slot is that of the chain. -/
def Knows (ch : Chain) (s : Store) (period : Nat) : Prop :=
  (period = periodOf s.finalized ∧ s.current = ch.committee period) ∨
    (period = periodOf s.finalized + 1 ∧ s.next = some (ch.committee period))

structure Counts (s : Store) : Prop where
  current : s.currentMax ≤ 512
  previous : s.previousMax ≤ 512

theorem apply_counts {s : Store} {u : LightClient.Update} (h : Counts s) (hb : countBits u.bits ≤ 512) : Counts (applyUpdate s u) := by
  have h1 := applyOptimistic_fields s u
  have hc : Counts (applyOptimistic s u) := by
    constructor
    · rw [h1.2.2.2.2]; have := h.current; omega
    · rw [h1.2.2.2.1]; exact h.previous
  have hcom : Counts (applyCommittees (applyOptimistic s u) u) := by
    simp only [applyCommittees]
    split
    · exact ⟨hc.current, hc.previous⟩
    · split
      · exact ⟨Nat.zero_le _, hc.current⟩
      · exact hc
  simp only [applyUpdate]
  split
  · simp only [applyFinalized]
    split
    · exact hcom
    · split
      · exact ⟨hcom.current, hcom.previous⟩
      · exact hcom
  · exact hc

/-- The head after an update is the one before, the attested header, or the finalized one; the attested one or a later one, if
two thirds signed. -/
theorem apply_head {s : Store} {u : LightClient.Update} (h : Counts s) (hb : 512 * 2 ≤ countBits u.bits * 3) (hm : countBits u.bits ≤ 512) :
    ((applyUpdate s u).optimistic = s.optimistic ∨ (applyUpdate s u).optimistic = u.attested ∨
      u.finalized = some (applyUpdate s u).optimistic) ∧
    (s.optimistic.slot < u.attested.slot → (∀ f, u.finalized = some f → f.slot ≤ u.attested.slot) →
      (applyUpdate s u).optimistic = u.attested) ∧
    (u.attested.slot ≤ s.optimistic.slot → (∀ f, u.finalized = some f → f.slot ≤ u.attested.slot) →
      (applyUpdate s u).optimistic = s.optimistic) := by
  have h1 := applyOptimistic_optimistic s u
  have hx : countBits u.bits > max (max s.currentMax (countBits u.bits)) s.previousMax / 2 := by
    have := h.current; have := h.previous; omega
  have h2 := (applyCommittees_fields (applyOptimistic s u) u).2
  generalize hs1 : applyOptimistic s u = s1 at *
  have hs : (applyUpdate s u).optimistic = s1.optimistic ∨ ∃ f, u.finalized = some f ∧ (applyUpdate s u).optimistic = f ∧
      s1.optimistic.slot.toNat < f.slot.toNat := by
    simp only [applyUpdate, hs1]
    split
    · simp only [applyFinalized]
      split
      · exact .inl h2
      · next f hf =>
        split
        · simp only [h2]
          split
          · next hl => exact .inr ⟨f, hf, rfl, hl⟩
          · exact .inl rfl
        · exact .inl h2
    · exact .inl rfl
  refine ⟨?_, fun hlt hf => ?_, fun hle hf => ?_⟩
  · rcases hs with hs | ⟨f, hf, hs, -⟩
    · rw [hs, h1]
      split
      · exact .inr (.inl rfl)
      · exact .inl rfl
    · exact .inr (.inr (by rw [hs]; exact hf))
  · have hl := UInt64.lt_iff_toNat_lt.mp hlt
    rw [if_pos ⟨hx, hl⟩] at h1
    rcases hs with hs | ⟨f, hf', hs, hlt'⟩
    · rw [hs, h1]
    · have := UInt64.le_iff_toNat_le.mp (hf f hf')
      rw [h1] at hlt'
      omega
  · have hl := UInt64.le_iff_toNat_le.mp hle
    rw [if_neg (by omega)] at h1
    rcases hs with hs | ⟨f, hf', hs, hlt'⟩
    · rw [hs, h1]
    · have := UInt64.le_iff_toNat_le.mp (hf f hf')
      rw [h1] at hlt'
      omega

/-- What becomes of the finalized header and the committees. -/
theorem apply_final {s : Store} {u : LightClient.Update} :
    (shouldApply (applyOptimistic s u) u = false → (applyUpdate s u).finalized = s.finalized ∧ (applyUpdate s u).current = s.current ∧
      (applyUpdate s u).next = s.next) ∧
    (shouldApply (applyOptimistic s u) u = true → ∀ f, u.finalized = some f →
      (applyUpdate s u).finalized = (if f.slot.toNat > s.finalized.slot.toNat then f else s.finalized) ∧
      (s.next = none → (applyUpdate s u).current = s.current ∧ (applyUpdate s u).next = u.nextCommittee) ∧
      (∀ n, s.next = some n → periodOf f = periodOf s.finalized + 1 →
        (applyUpdate s u).current = n ∧ (applyUpdate s u).next = u.nextCommittee) ∧
      (∀ n, s.next = some n → periodOf f ≠ periodOf s.finalized + 1 →
        (applyUpdate s u).current = s.current ∧ (applyUpdate s u).next = some n)) := by
  obtain ⟨h1, h2, h3, -, -⟩ := applyOptimistic_fields s u
  refine ⟨fun hs => ?_, fun hs f hf => ?_⟩
  · simp only [applyUpdate, hs]
    exact ⟨h1, h2, h3⟩
  · simp only [applyUpdate, hs, if_true]
    obtain ⟨c1, -⟩ := applyCommittees_fields (applyOptimistic s u) u
    obtain ⟨f1, f2⟩ := applyFinalized_fields (applyCommittees (applyOptimistic s u) u) u
    rw [f1, f2]
    refine ⟨?_, fun hn => ?_, fun n hn hp => ?_, fun n hn hp => ?_⟩
    · simp only [applyFinalized, hf, c1, h1]
      split
      · rfl
      · rw [c1, h1]
    · simp only [applyCommittees, h3, hn, h2, and_self]
    · have : syncPeriod u.finalizedSlot = syncPeriod (applyOptimistic s u).finalized.slot.toNat + 1 := by
        rw [h1, syncPeriod_eq, syncPeriod_eq, LightClient.Update.finalizedSlot, hf]; exact hp
      simp only [applyCommittees, h3, hn]
      rw [if_pos this]
      exact ⟨rfl, rfl⟩
    · have : ¬ syncPeriod u.finalizedSlot = syncPeriod (applyOptimistic s u).finalized.slot.toNat + 1 := by
        rw [h1, syncPeriod_eq, syncPeriod_eq, LightClient.Update.finalizedSlot, hf]; exact hp
      simp only [applyCommittees, h3, hn]
      rw [if_neg this]
      exact ⟨h2, by rw [h3, hn]⟩

theorem attested_period {env : Env} {ch : Chain} {p : Nat} {u : BeaconValue.Update .electra} (h : ForPeriod env ch p u) :
    u.attested.beacon.slot.toNat / 8192 = p := by
  have h1 := UInt64.le_iff_toNat_le.mp h.proof.order
  have h2 := UInt64.lt_iff_toNat_lt.mp h.attested.order
  have h3 := h.signed
  have h4 := h.finalized
  omega

/-- The update of the period of the finalized header, or of the next one when its committee is known. -/
theorem process_update {env : Env} {ch : Chain} {root : Id} {p now : Nat} {u : BeaconValue.Update .electra} {c : Client}
    (hu : ForPeriod env ch p u) (hk : Counts c.store) (hnow : u.signatureSlot.toNat ≤ now)
    (hs : (p = periodOf c.store.finalized ∧ c.store.next = none ∧ c.store.current = ch.committee p) ∨
      (p = periodOf c.store.finalized + 1 ∧ c.store.next = some (ch.committee p))) :
    ∃ c', process env (LightLife.mainnetConfig root) now c (updateOf u) = .ok c' ∧ Counts c'.store ∧
      c'.store = applyUpdate c.store (updateOf u).generic ∧
      c'.store.current = ch.committee p ∧ c'.store.next = some (ch.committee (p + 1)) ∧ periodOf c'.store.finalized = p ∧
      c'.store.finalized = if u.finalized.beacon.slot.toNat > c.store.finalized.slot.toNat then u.finalized.beacon else c.store.finalized := by
  have o1 := UInt64.le_iff_toNat_le.mp hu.proof.order
  have o2 := UInt64.lt_iff_toNat_lt.mp hu.attested.order
  have hp := attested_period hu
  have hfp := hu.finalized
  have hmaj := hu.attested.majority
  rw [TwoThirds, ← count_bits] at hmaj
  have hsig := signature_ok (root := root) (s := c.store) (u := (updateOf u).generic) hu.attested rfl rfl rfl rfl (by
    rw [hu.signed]
    rcases hs with ⟨e1, -, e3⟩ | e
    · exact .inl ⟨e1, e3⟩
    · exact .inr e)
  have hv : Verified env (LightLife.mainnetConfig root) now c.store (updateOf u).generic := by
    refine ⟨some_bits hu.attested.majority, hnow, o2, o1, hsig.1, ?_, hu.proof.proof, hu.committee_proof, hsig.2⟩
    rcases hs with ⟨e1, e2, -⟩ | ⟨e1, -⟩
    · refine .inr ⟨by rw [e2]; rfl, rfl, ?_⟩
      rw [syncPeriod_eq, syncPeriod_eq]; exact hp.trans e1
    · refine .inl ?_
      show c.store.finalized.slot.toNat < u.attested.beacon.slot.toNat
      simp only [periodOf] at e1
      omega
  have happ : shouldApply (applyOptimistic c.store (updateOf u).generic) (updateOf u).generic = true := by
    obtain ⟨f1, -, f3, -, -⟩ := applyOptimistic_fields c.store (updateOf u).generic
    simp only [shouldApply, f1, f3]
    rw [Bool.and_eq_true, Bool.or_eq_true]
    refine ⟨decide_eq_true (by show countBits (bitsOf u.aggregate.bits.1) * 3 ≥ _; omega), ?_⟩
    rcases hs with ⟨-, e2, -⟩ | ⟨e1, -⟩
    · refine .inr ?_
      rw [e2]
      simp only [updateOf, Msg.generic, LightClient.Update.finalizedSlot, Option.isNone_none, Option.isSome_some, Bool.and_self, Bool.true_and,
        beq_iff_eq, syncPeriod_eq]
      exact hfp.trans hp.symm
    · refine .inl (decide_eq_true ?_)
      simp only [periodOf] at e1
      show u.finalized.beacon.slot.toNat > _
      omega
  obtain ⟨g1, g2, g3, -⟩ := apply_final.2 happ u.finalized.beacon rfl
  refine ⟨_, (process_iff env _ now c _ _).mpr ⟨hv, rfl⟩, ?_, applyMsg_store env c _, ?_⟩
  · rw [applyMsg_store]; exact apply_counts hk (count_le _)
  · rw [applyMsg_store]
    have hnext : (updateOf u).generic.nextCommittee = some (ch.committee (p + 1)) := by
      rw [← hu.committee]; rfl
    rcases hs with ⟨e1, e2, e3⟩ | ⟨e1, e2⟩
    · refine ⟨(g2 e2).1.trans e3, (g2 e2).2.trans hnext, ?_, g1⟩
      rw [g1]
      split
      · exact hfp
      · exact e1.symm
    · have h := g3 _ e2 (by rw [← e1]; exact hfp)
      refine ⟨h.1, h.2.trans hnext, ?_, g1⟩
      rw [g1, if_pos]
      · exact hfp
      · simp only [periodOf] at e1; omega

/-- A finality update. -/
theorem process_final {env : Env} {ch : Chain} {root : Id} {now : Nat} {u : FinalityUpdate .electra} {c : Client}
    (ha : Attested env ch u.attested.beacon u.aggregate u.signatureSlot)
    (hf : FinalizedBy env u.attested.beacon u.finalized.beacon u.finalityBranch.1) (hk : Counts c.store)
    (hnow : u.signatureSlot.toNat ≤ now) (hs : Knows ch c.store (u.signatureSlot.toNat / 8192))
    (hcur : c.store.current = ch.committee (periodOf c.store.finalized))
    (hnext : ∀ n, c.store.next = some n → n = ch.committee (periodOf c.store.finalized + 1))
    (hnew : u.finalized.beacon = c.store.finalized ∨ c.store.finalized.slot < u.finalized.beacon.slot)
    (hrel : c.store.finalized.slot < u.attested.beacon.slot) :
    ∃ c', process env (LightLife.mainnetConfig root) now c (finalityOf u) = .ok c' ∧ Counts c'.store ∧
      c'.store = applyUpdate c.store (finalityOf u).generic ∧
      c'.store.finalized = u.finalized.beacon ∧ c'.store.current = ch.committee (periodOf u.finalized.beacon) ∧
      (∀ n, c'.store.next = some n → n = ch.committee (periodOf u.finalized.beacon + 1)) ∧
      Knows ch c'.store (u.signatureSlot.toNat / 8192) := by
  have o1 := UInt64.le_iff_toNat_le.mp hf.order
  have o2 := UInt64.lt_iff_toNat_lt.mp ha.order
  have o3 := UInt64.lt_iff_toNat_lt.mp hrel
  have hmaj := ha.majority
  rw [TwoThirds, ← count_bits] at hmaj
  have hsig := signature_ok (root := root) (s := c.store) (u := (finalityOf u).generic) ha rfl rfl rfl rfl (by
    rcases hs with h | h
    · exact .inl h
    · exact .inr h)
  have hv : Verified env (LightLife.mainnetConfig root) now c.store (finalityOf u).generic :=
    ⟨some_bits ha.majority, hnow, o2, o1, hsig.1, .inl o3, hf.proof, rfl, hsig.2⟩
  refine ⟨_, (process_iff env _ now c _ _).mpr ⟨hv, rfl⟩, by rw [applyMsg_store]; exact apply_counts hk (count_le _),
    applyMsg_store env c _, ?_⟩
  rw [applyMsg_store]
  obtain ⟨f1, -, f3, -, -⟩ := applyOptimistic_fields c.store (finalityOf u).generic
  rcases hnew with hnew | hnew
  · have happ : shouldApply (applyOptimistic c.store (finalityOf u).generic) (finalityOf u).generic = false := by
      simp only [shouldApply, f1]
      simp [finalityOf, Msg.generic, LightClient.Update.finalizedSlot, hnew]
    obtain ⟨g1, g2, g3⟩ := apply_final.1 happ
    rw [Knows, g1, g2, g3, hnew]
    exact ⟨rfl, hcur, hnext, hs⟩
  · have hn := UInt64.lt_iff_toNat_lt.mp hnew
    have happ : shouldApply (applyOptimistic c.store (finalityOf u).generic) (finalityOf u).generic = true := by
      simp only [shouldApply, f1]
      rw [Bool.and_eq_true, Bool.or_eq_true]
      exact ⟨decide_eq_true (by show countBits (bitsOf u.aggregate.bits.1) * 3 ≥ _; omega), .inl (decide_eq_true hn)⟩
    obtain ⟨g1, g2, g3, g4⟩ := apply_final.2 happ u.finalized.beacon rfl
    rw [if_pos hn] at g1
    rw [Knows, g1]
    have hle : periodOf c.store.finalized ≤ periodOf u.finalized.beacon := Nat.div_le_div_right (by omega)
    have hup : periodOf u.finalized.beacon ≤ u.signatureSlot.toNat / 8192 := Nat.div_le_div_right (by omega)
    have hcase : periodOf u.finalized.beacon = periodOf c.store.finalized ∨
        (periodOf u.finalized.beacon = periodOf c.store.finalized + 1 ∧ u.signatureSlot.toNat / 8192 = periodOf c.store.finalized + 1 ∧
          c.store.next = some (ch.committee (periodOf c.store.finalized + 1))) := by
      rcases hs with ⟨e1, -⟩ | ⟨e1, e2⟩
      · exact .inl (by omega)
      · rw [e1] at e2
        by_cases h : periodOf u.finalized.beacon = periodOf c.store.finalized
        · exact .inl h
        · exact .inr ⟨by omega, e1, e2⟩
    rcases hcase with e | ⟨e1, e2, e3⟩
    · have hsame : (applyUpdate c.store (finalityOf u).generic).current = c.store.current ∧
          (applyUpdate c.store (finalityOf u).generic).next = c.store.next := by
        cases hcn : c.store.next with
        | none => exact g2 hcn
        | some n => exact g4 n hcn (by omega)
      rw [hsame.1, hsame.2, e]
      exact ⟨rfl, hcur, hnext, hs⟩
    · obtain ⟨k1, k2⟩ := g3 _ e3 e1
      rw [k1, k2, e1, e2]
      exact ⟨rfl, rfl, nofun, .inl ⟨rfl, rfl⟩⟩

/-- An optimistic update. -/
theorem process_head {env : Env} {ch : Chain} {root : Id} {now : Nat} {u : OptimisticUpdate .electra} {c : Client}
    (ha : Attested env ch u.attested.beacon u.aggregate u.signatureSlot) (hk : Counts c.store)
    (hnow : u.signatureSlot.toNat ≤ now) (hs : Knows ch c.store (u.signatureSlot.toNat / 8192))
    (hrel : c.store.finalized.slot < u.attested.beacon.slot)
    (hlast : c.store.optimistic = u.attested.beacon ∨ c.store.optimistic.slot < u.attested.beacon.slot) :
    ∃ c', process env (LightLife.mainnetConfig root) now c (optimisticOf u) = .ok c' ∧ Counts c'.store ∧
      c'.store.optimistic = u.attested.beacon ∧
      c'.store.finalized = c.store.finalized ∧ c'.store.current = c.store.current ∧ c'.store.next = c.store.next := by
  have o2 := UInt64.lt_iff_toNat_lt.mp ha.order
  have o3 := UInt64.lt_iff_toNat_lt.mp hrel
  have hmaj := ha.majority
  rw [TwoThirds, ← count_bits] at hmaj
  have hsig := signature_ok (root := root) (s := c.store) (u := (optimisticOf u).generic) ha rfl rfl rfl rfl (by
    rcases hs with h | h
    · exact .inl h
    · exact .inr h)
  have hv : Verified env (LightLife.mainnetConfig root) now c.store (optimisticOf u).generic :=
    ⟨some_bits ha.majority, hnow, o2, Nat.zero_le _, hsig.1, .inl o3, rfl, rfl, hsig.2⟩
  have hh := apply_head (u := (optimisticOf u).generic) hk
    (by show 512 * 2 ≤ countBits (bitsOf u.aggregate.bits.1) * 3; omega) (count_le _)
  have happ : shouldApply (applyOptimistic c.store (optimisticOf u).generic) (optimisticOf u).generic = false := by
    simp [shouldApply, optimisticOf, Msg.generic, LightClient.Update.finalizedSlot]
  refine ⟨_, (process_iff env _ now c _ _).mpr ⟨hv, rfl⟩, by rw [applyMsg_store]; exact apply_counts hk (count_le _), ?_⟩
  rw [applyMsg_store]
  refine ⟨?_, apply_final.1 happ⟩
  rcases hlast with h | h
  · rw [hh.2.2 (by rw [h]; exact UInt64.le_refl _) (by simp [optimisticOf, Msg.generic]), h]
  · exact hh.2.1 h (by simp [optimisticOf, Msg.generic])

/-! ## What the network answers -/

variable {σ : Type} {env : Env} {ch : Chain} {root : Id} {now : Nat} {w : Portal σ} {node : BeaconNode.State}

theorem found {v : Value} {k : ContentKey.Beacon} (hw : Finds env w node) (hg : BeaconNode.get env node k = some (BeaconFormat.value v))
    (hb : BeaconFormat.Belongs k v) (s : Asked σ) : (w.find k s).1 = .ok v := (find_ok w k s v).mpr ⟨hb, hw k _ hg _⟩

theorem ask_boot {b : BeaconValue.Bootstrap .electra} (hw : Finds env w node)
    (hg : BeaconNode.get env node (.bootstrap root) = some (BeaconFormat.value (.bootstrap ⟨.electra, b⟩))) (s : Asked σ) :
    ((portalRpc w).bootstrap root s).1 = .ok (bootstrapOf b) := by
  simp only [portalRpc, found hw hg trivial s]; rfl

theorem ask_update {u : BeaconValue.Update .electra} {p : UInt64} (hw : Finds env w node)
    (hg : BeaconNode.get env node (.updatesByRange p 1) = some (BeaconFormat.value (one u))) (s : Asked σ) :
    ((portalRpc w).updates p 1 s).1 = .ok [updateOf u] := by
  simp only [portalRpc, found hw hg trivial s]; rfl

theorem ask_final {u : FinalityUpdate .electra} (hw : Finds env w node)
    (hg : BeaconNode.get env node (.finalityUpdate 0) = some (BeaconFormat.value (.finality ⟨.electra, u⟩))) (s : Asked σ) :
    ((portalRpc w).finality s).1 = .ok (finalityOf u) := by
  simp only [portalRpc, found hw hg trivial s]; rfl

theorem slot_now (hc : InSlot w now) (s : Asked σ) : slotAt beaconGenesis (w.clock s.world).1 = some now := by
  obtain ⟨h1, h2⟩ := hc s.world
  rw [slotAt, if_neg (by simp only [beaconGenesis]; omega), ← h2]
  rfl

theorem ask_head {u : OptimisticUpdate .electra} (hw : Finds env w node) (hc : InSlot w now)
    (hg : BeaconNode.get env node (.optimisticUpdate (UInt64.ofNat now)) = some (BeaconFormat.value (.optimistic ⟨.electra, u⟩))) (s : Asked σ) :
    ((portalRpc w).optimistic s).1 = .ok (optimisticOf u) := by
  simp only [portalRpc, Portal.tick, slot_now hc s, found hw hg trivial]; rfl

theorem process_now (hc : InSlot w now) {cfg : Config} {c c' : Client} {m : Msg} (h : process env cfg now c m = .ok c') (s : Asked σ) :
    ∃ s', processNow env cfg (portalRpc w) c m s = ((c', none), s') := by
  have : slotNow beaconGenesis (portalRpc w) s = (some now, (w.tick s).2) := by
    simp only [slotNow, portalRpc, Portal.tick, slot_now hc s]
  simp only [processNow, this, h]
  exact ⟨_, rfl⟩

/-- The finality update and the optimistic update of the present. -/
theorem latest_ok {c : Client} {final : FinalityUpdate .electra} {head : OptimisticUpdate .electra} (hw : Finds env w node) (hc : InSlot w now)
    (hp : Present env ch now final head) (hg : Gives env node now final head) (hk : Counts c.store) (hs : Knows ch c.store (now / 8192))
    (hcur : c.store.current = ch.committee (periodOf c.store.finalized))
    (hnext : ∀ n, c.store.next = some n → n = ch.committee (periodOf c.store.finalized + 1))
    (hnew : final.finalized.beacon = c.store.finalized ∨ c.store.finalized.slot < final.finalized.beacon.slot)
    (hlast : c.store.optimistic.slot < head.attested.beacon.slot) (s : Asked σ) :
    ∃ c' s', LightNode.latest env (LightLife.mainnetConfig root) (portalRpc w) c s = ((c', none), s') ∧ Counts c'.store ∧
      c'.store.finalized = final.finalized.beacon ∧ c'.store.optimistic = head.attested.beacon ∧
      c'.store.current = ch.committee (periodOf c'.store.finalized) ∧
      (∀ n, c'.store.next = some n → n = ch.committee (periodOf c'.store.finalized + 1)) ∧ Knows ch c'.store (now / 8192) := by
  have hmaj := hp.final_signed.majority
  rw [TwoThirds, ← count_bits] at hmaj
  have hrel : c.store.finalized.slot < final.attested.beacon.slot := by
    rcases hnew with h | h
    · rw [← h]; exact hp.behind
    · exact UInt64.lt_trans h hp.behind
  obtain ⟨c1, h1, k1, e1, f1, g1, n1, w1⟩ := process_final (root := root) hp.final_signed hp.proof hk hp.past (by rw [hp.period]; exact hs) hcur hnext hnew hrel
  rw [hp.period] at w1
  have hh := apply_head (u := (finalityOf final).generic) hk
    (by show 512 * 2 ≤ countBits (bitsOf final.aggregate.bits.1) * 3; omega) (count_le _)
  have hord : ∀ f, (finalityOf final).generic.finalized = some f → f.slot ≤ (finalityOf final).generic.attested.slot := by
    rintro f hf; cases hf; exact hp.proof.order
  have hbefore : c1.store.optimistic = head.attested.beacon ∨ c1.store.optimistic.slot < head.attested.beacon.slot := by
    rw [e1]
    rcases UInt64.lt_or_le c.store.optimistic.slot final.attested.beacon.slot with hl | hl
    · rw [hh.2.1 hl hord]
      exact hp.last
    · rw [hh.2.2 hl hord]
      exact .inr hlast
  have hsl : head.signatureSlot.toNat / 8192 = now / 8192 := by rw [hp.slot]
  have hrel1 : c1.store.finalized.slot < head.attested.beacon.slot := by
    rw [f1]
    rcases hp.last with h | h
    · rw [← h]; exact hp.behind
    · exact UInt64.lt_trans hp.behind h
  obtain ⟨c2, h2, k2, o2, f2, g2, n2⟩ := process_head (root := root) (c := c1) hp.head_signed k1 (Nat.le_of_eq hp.slot) (by rw [hsl]; exact w1) hrel1 hbefore
  obtain ⟨s1, p1⟩ := process_now hc h1 ((portalRpc w).finality s).2
  have l1 : latestFinality env (LightLife.mainnetConfig root) (portalRpc w) c s = ((c1, none), s1) := by
    simp only [latestFinality, ask_final hw hg.final s, p1]
  obtain ⟨s2, p2⟩ := process_now hc h2 ((portalRpc w).optimistic s1).2
  have l2 : latestOptimistic env (LightLife.mainnetConfig root) (portalRpc w) c1 s1 = ((c2, none), s2) := by
    simp only [latestOptimistic, ask_head hw hc hg.head s1, p2]
  refine ⟨c2, s2, by simp only [LightNode.latest, l1, l2], k2, f2.trans f1, o2, ?_, ?_, ?_⟩
  · rw [g2, f2, f1]; exact g1
  · rw [n2, f2, f1]; exact n1
  · rw [Knows, g2, n2, f2]; exact w1

/-! ## A start -/

theorem collect_ok {u : Nat → BeaconValue.Update .electra} (hw : Finds env w node) : ∀ (ps : List Nat) (s : Asked σ),
    (∀ p ∈ ps, BeaconNode.get env node (.updatesByRange (UInt64.ofNat p) 1) = some (BeaconFormat.value (one (u p)))) →
    ∃ s', collect (portalRpc w) ps s = (.ok (ps.map fun p => updateOf (u p)), s')
  | [], s, _ => ⟨s, rfl⟩
  | p :: ps, s, h => by
    obtain ⟨s', h'⟩ := collect_ok hw ps ((portalRpc w).updates (UInt64.ofNat p) 1 s).2 fun q hq => h q (List.mem_cons_of_mem _ hq)
    refine ⟨s', ?_⟩
    simp only [collect, ask_update hw (h p (List.mem_cons_self ..)) s, h', List.map_cons, List.cons_append, List.nil_append]

/-- Updates of periods one after the other. -/
theorem updates_run {u : Nat → BeaconValue.Update .electra} (hc : InSlot w now) (limit : Header) (bound : UInt64) : ∀ (n a : Nat) (c : Client) (s : Asked σ),
    (∀ p, a ≤ p → p < a + n → ForPeriod env ch p (u p) ∧ (u p).signatureSlot.toNat ≤ now ∧
      (u p).finalized.beacon.slot < limit.slot ∧ (u p).attested.beacon.slot < bound) →
    Counts c.store → c.store.finalized.slot < limit.slot → c.store.optimistic.slot < bound →
    ((a = periodOf c.store.finalized ∧ c.store.next = none ∧ c.store.current = ch.committee a) ∨
      (a = periodOf c.store.finalized + 1 ∧ c.store.next = some (ch.committee a) ∧ c.store.current = ch.committee (periodOf c.store.finalized))) →
    ∃ c' s', processList env (LightLife.mainnetConfig root) (portalRpc w) c ((List.range' a n).map fun p => updateOf (u p)) s = ((c', none), s') ∧
      Counts c'.store ∧ c'.store.finalized.slot < limit.slot ∧ c'.store.optimistic.slot < bound ∧
      ((a + n = periodOf c'.store.finalized ∧ c'.store.next = none ∧ c'.store.current = ch.committee (a + n)) ∨
        (a + n = periodOf c'.store.finalized + 1 ∧ c'.store.next = some (ch.committee (a + n)) ∧
          c'.store.current = ch.committee (periodOf c'.store.finalized)))
  | 0, a, c, s, _, hk, hf, ho, hs => ⟨c, s, rfl, hk, hf, ho, hs⟩
  | n + 1, a, c, s, h, hk, hf, ho, hs => by
    obtain ⟨u1, u2, u3, u4⟩ := h a (Nat.le_refl _) (by omega)
    have hmaj := u1.attested.majority
    rw [TwoThirds, ← count_bits] at hmaj
    obtain ⟨c1, h1, k1, e1, g1, n1, p1, f1⟩ := process_update (root := root) u1 hk u2 (hs.imp id fun h => ⟨h.1, h.2.1⟩)
    have hf1 : c1.store.finalized.slot < limit.slot := by
      rw [f1]
      split
      · exact u3
      · exact hf
    have ho1 : c1.store.optimistic.slot < bound := by
      have hh := (apply_head (u := (updateOf (u a)).generic) hk
        (by show 512 * 2 ≤ countBits (bitsOf (u a).aggregate.bits.1) * 3; omega) (count_le _)).1
      rw [e1]
      rcases hh with hh | hh | hh
      · rw [hh]; exact ho
      · rw [hh]; exact u4
      · rw [← Option.some.inj hh]
        exact UInt64.lt_of_le_of_lt u1.proof.order u4
    obtain ⟨s1, q1⟩ := process_now hc h1 s
    obtain ⟨c2, s2, h2⟩ := updates_run hc limit bound n (a + 1) c1 s1
      (fun p h3 h4 => h p (by omega) (by omega)) k1 hf1 ho1 (.inr ⟨by omega, n1, by rw [p1]; exact g1⟩)
    rw [show a + 1 + n = a + (n + 1) by omega] at h2
    refine ⟨c2, s2, ?_, h2.2⟩
    simp only [List.range'_succ, List.map_cons, processList, q1]
    exact h2.1

theorem sync_ok {d : Course} (hw : Finds env w node) (hc : InSlot w now) (hd : Sound env ch root now d) (hg : GivesAll env node root now d)
    (c : Client) (s : Asked σ) :
    ∃ c' s', LightNode.sync env (LightLife.mainnetConfig root) beaconGenesis (portalRpc w) c s = ((c', none), s') ∧
      c'.store.finalized = d.final.finalized.beacon ∧ c'.store.optimistic = d.head.attested.beacon ∧ Tracks ch now c' := by
  have o1 := UInt64.lt_iff_toNat_lt.mp hd.newer
  have o2 := UInt64.lt_iff_toNat_lt.mp hd.present.behind
  have o3 := UInt64.lt_iff_toNat_lt.mp hd.present.final_signed.order
  have o4 := hd.present.past
  have hboot : LightClient.bootstrap env (LightLife.mainnetConfig root) now c (bootstrapOf d.boot) =
      .ok { c with store := ⟨d.boot.header.beacon, members d.boot.currentSyncCommittee, none, d.boot.header.beacon, 0, 0⟩ } :=
    (C42_bootstrap env _ now c _ _).mpr ⟨by show d.boot.header.beacon.slot.toNat ≤ now; omega, by simp [LightLife.mainnetConfig], hd.root,
      hd.proof, rfl⟩
  have hslot : ∀ s, slotNow beaconGenesis (portalRpc w) s = (some now, (w.tick s).2) := fun s => by
    simp only [slotNow, portalRpc, Portal.tick, slot_now hc s]
  have hfirst : syncPeriod d.boot.header.beacon.slot.toNat = d.first := syncPeriod_eq _
  have hle : d.first ≤ now / 8192 := Nat.div_le_div_right (by omega)
  have hhead : d.boot.header.beacon.slot < d.head.attested.beacon.slot := by
    have := UInt64.lt_trans hd.newer hd.present.behind
    rcases hd.present.last with h | h
    · rw [← h]; exact this
    · exact UInt64.lt_trans this h
  have hups : ∀ p, d.first ≤ p → p < d.first + (now / 8192 - d.first) → ForPeriod env ch p (d.update p) ∧
      (d.update p).signatureSlot.toNat ≤ now ∧ (d.update p).finalized.beacon.slot < d.final.finalized.beacon.slot ∧
      (d.update p).attested.beacon.slot < d.head.attested.beacon.slot := by
    intro p h1 h2
    have hp := hd.updates p h1 (by omega)
    have := hp.signed
    exact ⟨hp, by omega, (hd.newer_updates p h1 (by omega)).1, (hd.newer_updates p h1 (by omega)).2⟩
  obtain ⟨s1, h1⟩ := collect_ok (u := d.update) hw (List.range' d.first (now / 8192 - d.first))
    (w.tick ((w.tick ((portalRpc w).bootstrap root s).2).2)).2 (fun p hp => by
      have := List.mem_range'_1.mp hp
      exact hg.updates p this.1 (by omega))
  obtain ⟨c2, s2, h2, k2, f2, o2', t2⟩ := updates_run (root := root) hc d.final.finalized.beacon d.head.attested.beacon.slot (now / 8192 - d.first) d.first
    { c with store := ⟨d.boot.header.beacon, members d.boot.currentSyncCommittee, none, d.boot.header.beacon, 0, 0⟩ } s1 hups
    ⟨Nat.zero_le _, Nat.zero_le _⟩ hd.newer hhead (.inl ⟨rfl, rfl, hd.committee⟩)
  rw [show d.first + (now / 8192 - d.first) = now / 8192 by omega] at t2
  have hcur : c2.store.current = ch.committee (periodOf c2.store.finalized) := by
    rcases t2 with ⟨e1, -, e3⟩ | ⟨-, -, e3⟩
    · rw [e3, e1]
    · exact e3
  have hnext : ∀ n, c2.store.next = some n → n = ch.committee (periodOf c2.store.finalized + 1) := by
    intro n hn
    rcases t2 with ⟨-, e2, -⟩ | ⟨e1, e2, -⟩
    · rw [e2] at hn; cases hn
    · rw [e2] at hn; cases hn; rw [e1]
  have hknows : Knows ch c2.store (now / 8192) := by
    rcases t2 with ⟨e1, -, e3⟩ | ⟨e1, e2, -⟩
    · exact .inl ⟨e1, e3⟩
    · exact .inr ⟨e1, e2⟩
  obtain ⟨c3, s3, h3, k3, f3, o3', g3, n3, w3⟩ := latest_ok (root := root) hw hc hd.present hg.present k2 hknows hcur hnext (.inr f2) o2' s2
  refine ⟨c3, s3, ?_, f3, o3', g3, n3, ?_, k3.current, k3.previous⟩
  · have hfetch : fetchUpdates (portalRpc w) d.first (w.tick ((portalRpc w).bootstrap root s).2).2 =
        (.ok ((List.range' d.first (now / 8192 - d.first)).map fun p => updateOf (d.update p)), s1) := by
      simp only [fetchUpdates, hslot, syncPeriod_eq]
      rw [if_pos (show (portalRpc w).portal = true from rfl)]
      exact h1
    simp only [LightNode.sync, show (LightLife.mainnetConfig root).checkpoint = root from rfl, ask_boot hw hg.boot s, hslot, hboot, syncFrom, hfirst,
      hfetch, h2, h3]
  · rcases w3 with ⟨e1, -⟩ | ⟨e1, e2⟩
    · exact .inl e1
    · exact .inr ⟨e1, by rw [e2]; simp⟩

/-- One turn. -/
theorem turn_ok {c : Client} {t : Turn σ} (hm : Meets env ch c.store.finalized c.store.optimistic t) (hc : Tracks ch t.now c) :
    ∃ c' s', LightNode.advance env (LightLife.mainnetConfig root) (portalRpc t.world) c t.state = ((c', none), s') ∧
      c'.store.finalized = t.final.finalized.beacon ∧ c'.store.optimistic = t.head.attested.beacon ∧ Keeps ch c' := by
  have hk : Knows ch c.store (t.now / 8192) := by
    rcases hc.near with h | ⟨h, hn⟩
    · exact .inl ⟨h, by rw [hc.current, h]⟩
    · refine .inr ⟨h, ?_⟩
      obtain ⟨n, hn⟩ := Option.ne_none_iff_exists'.mp hn
      rw [hn, hc.next n hn, h]
  obtain ⟨c1, s1, h1, k1, f1, o1, g1, n1, w1⟩ := latest_ok (root := root) hm.finds hm.slot hm.present hm.gives ⟨hc.counts.1, hc.counts.2⟩ hk hc.current hc.next
    hm.newer hm.newer_head t.state
  cases hn : c1.store.next with
  | some n =>
    refine ⟨c1, s1, ?_, f1, o1, g1, ?_, k1.current, k1.previous⟩
    · simp only [LightNode.advance, h1, hn, Option.isNone_some, Bool.false_eq_true, if_false]
    · rw [hn, n1 n hn]
  | none =>
    have hp : periodOf t.final.finalized.beacon = periodOf c1.store.finalized := by rw [f1]
    have hperiod : t.now / 8192 = periodOf c1.store.finalized := by
      rcases w1 with h | h
      · exact h.1
      · rw [hn] at h; cases h.2
    have hsig : t.update.signatureSlot.toNat ≤ t.now := hm.past
    obtain ⟨c2, h2, k2, e2, g2, n2, p2, f2⟩ := process_update (root := root) hm.update k1 hsig (.inl ⟨hp, hn, by rw [hp]; exact g1⟩)
    have hmaj := hm.update.attested.majority
    rw [TwoThirds, ← count_bits] at hmaj
    have hord : ∀ f, (updateOf t.update).generic.finalized = some f → f.slot ≤ (updateOf t.update).generic.attested.slot := by
      rintro f hf; cases hf; exact hm.update.proof.order
    have hh := (apply_head (u := (updateOf t.update).generic) k1
      (by show 512 * 2 ≤ countBits (bitsOf t.update.aggregate.bits.1) * 3; omega) (count_le _)).2.2 (by rw [o1]; exact hm.older_head) hord
    have hf2 : c2.store.finalized = t.final.finalized.beacon := by
      rw [f2, if_neg (by rw [f1]; have := UInt64.le_iff_toNat_le.mp hm.older; omega), f1]
    obtain ⟨s2, q2⟩ := process_now hm.slot h2 ((portalRpc t.world).updates (UInt64.ofNat (periodOf t.final.finalized.beacon)) 1 s1).2
    refine ⟨c2, s2, ?_, hf2, ?_, ?_, ?_, k2.current, k2.previous⟩
    · have hsp : syncPeriod c1.store.finalized.slot.toNat = periodOf t.final.finalized.beacon := by rw [syncPeriod_eq, f1]; rfl
      simp only [LightNode.advance, h1, hn, Option.isNone_none, if_true, hsp, ask_update hm.finds hm.given s1, q2]
    · rw [e2, hh, o1]
    · rw [hf2]; exact g2
    · rw [hf2]; exact n2

/-- A client that cannot synchronise does not start. -/
theorem no_start (web : Web (Asked σ)) (w : Portal σ) (root : Id) (file : Option Bytes) (a : Asked σ)
    (h : ∀ c s, (LightNode.sync env (LightLife.mainnetConfig root) beaconGenesis (portalRpc w) c s).1.2 ≠ none) :
    (beaconSync env web (portalRpc w) root file a).1.1 ≠ none := by
  intro hn
  obtain ⟨x, y, z, t, hx⟩ : ∃ x y z t, beaconSync env web (portalRpc w) root file a = ((x, some y, z), t) := ⟨_, _, _, _, beaconSync_eq ..⟩
  rw [hx] at hn
  cases hn
  obtain ⟨m, t', -, -, -, hs, h1, h2, h3, -⟩ := beaconSync_ok (portal_plain w) root file a _ _ _ hx
  have hport : m.settings.rpcPort.isSome = false := by rw [h1]; rfl
  have hfall : m.settings.fallback = none := by rw [h1]; rfl
  have hext : m.settings.loadExternal = false := by rw [h1]; rfl
  have hchain : m.settings.chainId = 1 := by rw [h1]; rfl
  have hgen : m.settings.genesisTime = beaconGenesis := by rw [h1]; rfl
  have hcfg : m.settings.config m.checkpoint = LightLife.mainnetConfig root := by rw [h1, h3]; rfl
  have hsync : ∀ s, (m.sync env s).1.1 ≠ none ∧ (m.sync env s).1.2.settings = m.settings := by
    intro s
    have : (portalRpc w).chainId s = (some 1, s) := rfl
    simp only [Node.sync, h2, this, hchain, ne_eq, not_true, if_false, hgen, hcfg]
    exact ⟨h _ _, trivial⟩
  simp only [Node.start, hport, Bool.false_eq_true, if_false] at hs
  rw [if_neg (by simp)] at hs
  split at hs
  · next hz => exact (hsync t').1 hz
  · have he := (hsync t').2
    simp only [Node.bootFromFallback, he, hfall, Node.afterFallback, hext, Bool.false_eq_true, if_false] at hs
    cases hs
  · cases hs

end Verif.Props.BeaconFlow

namespace Verif.BeaconNode
open Verif.BeaconValue Verif.LightClient Verif.Props.BeaconNodes

/-! ## Rows stay -/

theorem insertBoot_rows (st : Store) (r : BeaconStore.BootRow) :
    st.updates <+: (BeaconStore.insertBoot st r).updates ∧ ∀ x ∈ st.boots, x ∈ (BeaconStore.insertBoot st r).boots := by
  unfold BeaconStore.insertBoot
  split
  · exact ⟨List.prefix_refl _, fun _ h => h⟩
  · exact ⟨List.prefix_refl _, fun _ h => List.mem_append_left _ h⟩

theorem insertUpdates_rows (c) (w : Nat → Bool) : ∀ (l : List (Nat × Versioned Update)) (i : Nat) (st : Store),
    st.updates <+: (BeaconStore.insertUpdates c w i st l).updates ∧ (BeaconStore.insertUpdates c w i st l).boots = st.boots
  | [], _, st => ⟨List.prefix_refl _, rfl⟩
  | (p, u) :: l, i, st => by
    have h1 : st.updates <+: (BeaconStore.writeUpdate st p (c.encUpdate u) (w i)).updates ∧
        (BeaconStore.writeUpdate st p (c.encUpdate u) (w i)).boots = st.boots := by
      unfold BeaconStore.writeUpdate
      split <;> try split
      all_goals try exact ⟨List.prefix_refl _, rfl⟩
      all_goals
        unfold BeaconStore.insertUpdate
        split
        · exact ⟨List.prefix_refl _, rfl⟩
        · exact ⟨List.prefix_append _ _, rfl⟩
    have h2 := insertUpdates_rows c w l (i + 1) (BeaconStore.writeUpdate st p (c.encUpdate u) (w i))
    exact ⟨h1.1.trans h2.1, h2.2.trans h1.2⟩

theorem put_rows (H) (st : Store) (key : ContentKey.Beacon) (content : Bytes) (w : Nat → Bool) :
    st.updates <+: (BeaconStore.put (codec H) st (storeKey key) content w).1.updates ∧
      ∀ x ∈ st.boots, x ∈ (BeaconStore.put (codec H) st (storeKey key) content w).1.boots := by
  cases key with
  | bootstrap root =>
    simp only [storeKey, BeaconStore.put]
    repeat' split
    all_goals first | exact ⟨List.prefix_refl _, fun _ h => h⟩ | exact insertBoot_rows _ _
  | updatesByRange a b =>
    simp only [storeKey, BeaconStore.put]
    split
    · exact ⟨List.prefix_refl _, fun _ h => h⟩
    · exact ⟨(insertUpdates_rows _ _ _ _ _).1, fun _ h => by rw [(insertUpdates_rows _ _ _ _ _).2]; exact h⟩
  | _ =>
    simp only [storeKey, BeaconStore.put]
    repeat' split
    all_goals exact ⟨List.prefix_refl _, fun _ h => h⟩

theorem putIf_rows (H) (ask : Bool) (st : Store) (key : ContentKey.Beacon) (content : Bytes) (w : Nat → Bool) :
    st.updates <+: (putIf H ask st key content w).updates ∧ ∀ x ∈ st.boots, x ∈ (putIf H ask st key content w).boots := by
  unfold putIf
  repeat' split
  all_goals first | exact ⟨List.prefix_refl _, fun _ h => h⟩ | exact put_rows ..

theorem reopen_rows {H} {st st' : Store} (h : BeaconStore.reopen (codec H) st = some st') :
    st'.updates = st.updates ∧ st'.boots = st.boots := by
  unfold BeaconStore.reopen at h
  repeat' split at h
  all_goals cases h
  all_goals exact ⟨rfl, rfl⟩

theorem step_rows {env : Env} {s t : State} {e : Ev} (h : step env s e = some t) :
    s.store.updates <+: t.store.updates ∧
      ∀ x ∈ s.store.boots, (∀ now, e = .prune now → now ≤ x.slot + 864000) → x ∈ t.store.boots := by
  have same : t.store = s.store → s.store.updates <+: t.store.updates ∧
      ∀ x ∈ s.store.boots, (∀ now, e = .prune now → now ≤ x.slot + 864000) → x ∈ t.store.boots := by
    intro he; rw [he]; exact ⟨List.prefix_refl _, fun _ h _ => h⟩
  cases e with
  | arrived key content now =>
    simp only [step] at h
    split at h <;> (cases h; exact same rfl)
  | keep i w =>
    simp only [step] at h
    split at h
    · cases h; exact same rfl
    · cases h; exact ⟨(putIf_rows ..).1, fun x hx _ => (putIf_rows ..).2 x hx⟩
  | operator ask key content w =>
    simp only [step] at h
    cases h; exact ⟨(putIf_rows ..).1, fun x hx _ => (putIf_rows ..).2 x hx⟩
  | prune now =>
    simp only [step] at h
    cases h
    refine ⟨List.prefix_refl _, fun x hx hp => List.mem_filter.mpr ⟨hx, ?_⟩⟩
    have := hp now rfl
    simp; omega
  | started prior now b msgs =>
    rcases step_started (env := env) (s := s) (prior := prior) (now := now) (b := b) (msgs := msgs) with h' | h'
    · rw [h'] at h; cases h; exact same rfl
    · simp only [step] at h
      repeat' split at h
      all_goals cases h
      all_goals exact same rfl
  | heard now m =>
    simp only [step] at h
    repeat' split at h
    all_goals cases h
    all_goals exact same rfl
  | restart given tie =>
    simp only [step, Option.map_eq_some_iff] at h
    obtain ⟨st, h1, rfl⟩ := h
    obtain ⟨h2, h3⟩ := reopen_rows h1
    exact ⟨by rw [fresh, h2]; exact List.prefix_refl _, fun x hx _ => by rw [fresh, h3]; exact hx⟩

theorem run_rows {env : Env} : ∀ {es : List Ev} {s t : State}, run env s es = some t →
    s.store.updates <+: t.store.updates ∧
      ∀ x ∈ s.store.boots, (∀ now, .prune now ∈ es → now ≤ x.slot + 864000) → x ∈ t.store.boots
  | [], s, t, h => by cases h; exact ⟨List.prefix_refl _, fun _ h _ => h⟩
  | e :: es, s, t, h => by
    simp only [run] at h
    split at h
    · next u hu =>
      have h1 := step_rows hu
      have h2 := run_rows h
      refine ⟨h1.1.trans h2.1, fun x hx hp => h2.2 x (h1.2 x hx fun now he => hp now (he ▸ List.mem_cons_self ..)) fun now hm =>
        hp now (List.mem_cons_of_mem _ hm)⟩
    · cases h

theorem find_prefix {α : Type} (p : α → Bool) {l l' : List α} {x : α} (h : l <+: l') (hx : l.find? p = some x) : l'.find? p = some x := by
  obtain ⟨r, rfl⟩ := h
  rw [List.find?_append, hx]; rfl

theorem collect_kept {H} {st st' : Store} (h : st.updates <+: st'.updates) : ∀ (ps : List Nat) (acc us : List (Versioned Update)),
    BeaconStore.collectUpdates (codec H) st acc ps = .ok (some us) → BeaconStore.collectUpdates (codec H) st' acc ps = .ok (some us)
  | [], _, _, hu => hu
  | p :: ps, acc, us, hu => by
    have hl : ∀ bs, BeaconStore.lookupUpdate st p = .ok (some bs) → BeaconStore.lookupUpdate st' p = .ok (some bs) := by
      intro bs hb
      unfold BeaconStore.lookupUpdate at hb ⊢
      split at hb
      · cases hb
      · rw [Except.ok.injEq, Option.map_eq_some_iff] at hb
        obtain ⟨r, h1, h2⟩ := hb
        rw [find_prefix _ h h1, ← h2]; rfl
    simp only [BeaconStore.collectUpdates] at hu ⊢
    split at hu
    · cases hu
    · cases hu
    · next bs hb =>
      rw [hl _ hb]
      dsimp only
      split at hu
      · cases hu
      · exact collect_kept h ps _ us hu

end Verif.BeaconNode
