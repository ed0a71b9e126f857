import Verif.Props.BeaconValidatorSpec
import Verif.Lemmas.LightClient
import Verif.Lemmas.Merkle

/-! # Helper lemmas for the beacon validator -/

namespace Verif.BeaconValidator
open Verif.BeaconValue Verif.SszT Verif.Merkle Verif.LightClient
open Verif.Props.BeaconRules

theorem bit_cons_low (b : UInt8) (bs : Bytes) (i : Nat) (h : i < 8) : bit (b :: bs) i = b.toNat.testBit i := by
  have h1 : i / 8 = 0 := by omega
  have h2 : i % 8 = i := by omega
  simp [bit, h1, h2]

theorem bit_cons_high (b : UInt8) (bs : Bytes) (i : Nat) : bit (b :: bs) (8 + i) = bit bs i := by
  have h1 : (8 + i) / 8 = i / 8 + 1 := by omega
  have h2 : (8 + i) % 8 = i % 8 := by omega
  simp [bit, h1, h2]

theorem bitsOf_eq : ∀ bs : Bytes, bitsOf bs = (List.range (8 * bs.length)).map (bit bs)
  | [] => rfl
  | b :: bs => by
    have ih := bitsOf_eq bs
    have h1 : bitsOf (b :: bs) = (List.range 8).map (fun i => b.toNat.testBit i) ++ bitsOf bs := by
      simp [bitsOf]
    have h2 : 8 * (b :: bs).length = 8 + 8 * bs.length := by simp; omega
    rw [h1, h2, List.range_add, List.map_append, ih, List.map_map]
    have e1 : (List.range 8).map (fun i => b.toNat.testBit i) = (List.range 8).map (bit (b :: bs)) :=
      List.map_congr_left fun i hi => (bit_cons_low b bs i (List.mem_range.mp hi)).symm
    have e2 : (List.range (8 * bs.length)).map (bit bs) =
        (List.range (8 * bs.length)).map (bit (b :: bs) ∘ fun x => 8 + x) :=
      List.map_congr_left fun i _ => (bit_cons_high b bs i).symm
    rw [e1, e2]

theorem bit_high (bs : Bytes) (i : Nat) (h : 8 * bs.length ≤ i) : bit bs i = false := by
  have : bs.length ≤ i / 8 := by omega
  have h' : bs[i / 8]? = none := List.getElem?_eq_none this
  simp [bit, List.getD, h']

theorem zip_filter (f : Nat → Bool) : ∀ (ks : List Bytes) (m k : Nat), (∀ i, k + m ≤ i → f i = false) →
    ((ks.zip ((List.range' k m).map f)).filter fun p => p.2).map (fun p => p.1) =
      ((ks.zipIdx k).filter fun p => f p.2).map (fun p => p.1)
  | [], _, _, _ => rfl
  | a :: ks, 0, k, h => by
    have hall : ((a :: ks).zipIdx k).filter (fun p => f p.2) = [] := by
      rw [List.filter_eq_nil_iff]
      intro p hp
      have := List.le_snd_of_mem_zipIdx hp
      rw [h p.2 (by omega)]
      exact Bool.false_ne_true
    rw [hall]
    rfl
  | a :: ks, m + 1, k, h => by
    have ih := zip_filter f ks m (k + 1) (fun i hi => h i (by omega))
    rw [List.range'_succ, List.map_cons, List.zip_cons_cons, List.zipIdx_cons]
    cases hf : f k
    · rw [List.filter_cons_of_neg (by simp), List.filter_cons_of_neg (by simp [hf]), ih]
    · rw [List.filter_cons_of_pos rfl, List.filter_cons_of_pos (by exact hf), List.map_cons,
        List.map_cons, ih]

theorem participatingKeys_eq (c : Committee) (bs : Bytes) : participatingKeys c (bitsOf bs) = signers c bs := by
  unfold participatingKeys signers
  rw [bitsOf_eq, List.range_eq_range']
  exact zip_filter (bit bs) c.pubkeys (8 * bs.length) 0 (fun i hi => bit_high bs i (by omega))

theorem countBits_pos (bs : BytesN 64) : 0 < countBits (bitsOf bs.1) ↔ ∃ i < 512, bit bs.1 i = true := by
  rw [countBits, List.count_pos_iff, bitsOf_eq, List.mem_map, bs.2]
  constructor
  · rintro ⟨i, hi, h⟩; exact ⟨i, List.mem_range.mp hi, h⟩
  · rintro ⟨i, hi, h⟩; exact ⟨i, List.mem_range.mpr hi, h⟩

theorem config_version (net : Net) (slot : Nat) : net.config.forkVersion slot = net.electraVersion := by
  simp [Net.config, Config.forkVersion]

/-- The committee and signature part. -/
theorem signature_iff (env : Env) (net : Net) (s : Store) (u : LightClient.Update) (bs : Bytes)
    (hb : u.bits = bitsOf bs) :
    ((syncPeriod u.signatureSlot = syncPeriod s.finalized.slot.toNat ∨
      (s.next.isSome = true ∧ syncPeriod u.signatureSlot = syncPeriod s.finalized.slot.toNat + 1)) ∧
     ∃ c, signingCommittee s u = some c ∧ checkSignature env net.config c u = .ok ()) ↔
    ∃ c : Committee,
      ((u.signatureSlot / 8192 = s.finalized.slot.toNat / 8192 ∧ c = s.current) ∨
        (u.signatureSlot / 8192 = s.finalized.slot.toNat / 8192 + 1 ∧ s.next = some c)) ∧
      (∀ k ∈ signers c bs, env.keyOk k = true) ∧
      env.verifySig u.signature (signingRoot env.H net.genesisRoot (headerRoot env.H u.attested) net.electraVersion)
        (signers c bs) = true := by
  have hsig : ∀ c, checkSignature env net.config c u = .ok () ↔
      (∀ k ∈ signers c bs, env.keyOk k = true) ∧
      env.verifySig u.signature (signingRoot env.H net.genesisRoot (headerRoot env.H u.attested) net.electraVersion)
        (signers c bs) = true := by
    intro c
    unfold checkSignature
    simp only [hb, participatingKeys_eq, config_version]
    rw [show net.config.genesisRoot = net.genesisRoot from rfl, ← List.all_eq_true]
    cases (signers c bs).all env.keyOk with
    | false => simp
    | true =>
      simp only [Bool.true_eq_false, if_false, true_and]
      split
      · next h => simp [h]
      · next h => simp [h]
  simp only [syncPeriod_eq, hsig, signingCommittee]
  constructor
  · rintro ⟨hp, c, hc, hk⟩
    refine ⟨c, ?_, hk⟩
    split at hc
    · next he => exact Or.inl ⟨he, (Option.some.inj hc).symm⟩
    · next he =>
      rcases hp with h | h
      · exact absurd h he
      · exact Or.inr ⟨h.2, hc⟩
  · rintro ⟨c, hc, hk⟩
    rcases hc with ⟨he, rfl⟩ | ⟨he, hn⟩
    · exact ⟨Or.inl he, s.current, if_pos he, hk⟩
    · refine ⟨Or.inr ⟨by rw [hn]; rfl, he⟩, c, ?_, hk⟩
      rw [if_neg (by omega)]
      exact hn

theorem verify_update_iff (env : Env) (net : Net) (now : Nat) (s : Store) (u : BeaconValue.Update .electra) :
    LightClient.verify env net.config now s (genericUpdate u) = .ok () ↔ UpdateOk env net now s u := by
  rw [LightClient.verify_iff]
  have hs := signature_iff env net s (genericUpdate u) u.aggregate.bits.1 rfl
  constructor
  · intro h
    refine ⟨⟨(countBits_pos _).mp h.bits, ?_, h.time, hs.mp ⟨h.period, h.signature⟩⟩, ⟨?_, h.finalityProof⟩,
      h.nextProof, ?_⟩
    · exact UInt64.lt_iff_toNat_lt.mpr h.attested
    · exact UInt64.le_iff_toNat_le.mpr h.finalized
    · refine h.relevant.imp (fun h => UInt64.lt_iff_toNat_lt.mpr h) (fun ⟨h1, _, h3⟩ => ?_)
      rw [syncPeriod_eq, syncPeriod_eq] at h3
      exact ⟨Option.isNone_iff_eq_none.mp h1, h3⟩
  · intro h
    obtain ⟨hp, hc⟩ := hs.mpr h.signed.signed
    refine ⟨(countBits_pos _).mpr h.signed.some_signer, h.signed.past, UInt64.lt_iff_toNat_lt.mp h.signed.order,
      UInt64.le_iff_toNat_le.mp h.finalized.order, hp, ?_, h.finalized.proof, h.committee, hc⟩
    refine h.relevant.imp (fun h => UInt64.lt_iff_toNat_lt.mp h) (fun ⟨h1, h3⟩ => ?_)
    rw [syncPeriod_eq, syncPeriod_eq]
    exact ⟨Option.isNone_iff_eq_none.mpr h1, rfl, h3⟩

theorem verify_finality_iff (env : Env) (net : Net) (now : Nat) (s : Store) (u : FinalityUpdate .electra) :
    LightClient.verify env net.config now s (genericFinality u) = .ok () ↔ FinalityOk env net now s u := by
  rw [LightClient.verify_iff]
  have hs := signature_iff env net s (genericFinality u) u.aggregate.bits.1 rfl
  constructor
  · intro h
    refine ⟨⟨(countBits_pos _).mp h.bits, ?_, h.time, hs.mp ⟨h.period, h.signature⟩⟩, ⟨?_, h.finalityProof⟩, ?_⟩
    · exact UInt64.lt_iff_toNat_lt.mpr h.attested
    · exact UInt64.le_iff_toNat_le.mpr h.finalized
    · rcases h.relevant with h | h
      · exact UInt64.lt_iff_toNat_lt.mpr h
      · exact absurd h.2.1 (by simp [genericFinality])
  · intro h
    obtain ⟨hp, hc⟩ := hs.mpr h.signed.signed
    exact ⟨(countBits_pos _).mpr h.signed.some_signer, h.signed.past, UInt64.lt_iff_toNat_lt.mp h.signed.order,
      UInt64.le_iff_toNat_le.mp h.finalized.order, hp, Or.inl (UInt64.lt_iff_toNat_lt.mp h.newer),
      h.finalized.proof, rfl, hc⟩

theorem verify_optimistic_iff (env : Env) (net : Net) (now : Nat) (s : Store) (u : OptimisticUpdate .electra) :
    LightClient.verify env net.config now s (genericOptimistic u) = .ok () ↔ OptimisticOk env net now s u := by
  rw [LightClient.verify_iff]
  have hs := signature_iff env net s (genericOptimistic u) u.aggregate.bits.1 rfl
  constructor
  · intro h
    refine ⟨⟨(countBits_pos _).mp h.bits, ?_, h.time, hs.mp ⟨h.period, h.signature⟩⟩, ?_⟩
    · exact UInt64.lt_iff_toNat_lt.mpr h.attested
    · rcases h.relevant with h | h
      · exact UInt64.lt_iff_toNat_lt.mpr h
      · exact absurd h.2.1 (by simp [genericOptimistic])
  · intro h
    obtain ⟨hp, hc⟩ := hs.mpr h.signed.signed
    exact ⟨(countBits_pos _).mpr h.signed.some_signer, h.signed.past, UInt64.lt_iff_toNat_lt.mp h.signed.order,
      Nat.zero_le _, hp, Or.inl (UInt64.lt_iff_toNat_lt.mp h.newer), rfl, rfl, hc⟩

theorem verifyUpdate_valid (env : Env) (net : Net) (now : Nat) (s : Store) (u : LightClient.Update) :
    verifyUpdate env net now s u = .valid ↔ LightClient.verify env net.config now s u = .ok () := by
  unfold verifyUpdate
  split
  · next h => simp [h]
  · next h => simp [h]
  · next e hn h => simp [h]

theorem verifyUpdates_valid (env : Env) (net : Net) (now : Nat) (s : Store) :
    ∀ l : List (Versioned BeaconValue.Update), verifyUpdates env net now s l = .valid ↔
      ∀ v ∈ l, ∃ u, v = ⟨.electra, u⟩ ∧ UpdateOk env net now s u
  | [] => by simp [verifyUpdates]
  | ⟨.electra, u⟩ :: l => by
    have ih := verifyUpdates_valid env net now s l
    rw [verifyUpdates]
    have hv := verifyUpdate_valid env net now s (genericUpdate u)
    rw [verify_update_iff] at hv
    constructor
    · intro h
      split at h
      · next h1 =>
        intro v hm
        rcases List.mem_cons.mp hm with rfl | hm
        · exact ⟨u, rfl, hv.mp h1⟩
        · exact ih.mp h v hm
      · next h1 => exact absurd h h1
    · intro h
      obtain ⟨u', he, hu⟩ := h _ List.mem_cons_self
      cases he
      rw [hv.mpr hu]
      exact ih.mpr fun v hm => h v (List.mem_cons_of_mem _ hm)
  | ⟨.bellatrix, u⟩ :: l => by
    simp only [verifyUpdates]
    refine ⟨nofun, fun h => ?_⟩
    obtain ⟨u', he, -⟩ := h _ List.mem_cons_self
    cases he
  | ⟨.capella, u⟩ :: l => by
    simp only [verifyUpdates]
    refine ⟨nofun, fun h => ?_⟩
    obtain ⟨u', he, -⟩ := h _ List.mem_cons_self
    cases he
  | ⟨.deneb, u⟩ :: l => by
    simp only [verifyUpdates]
    refine ⟨nofun, fun h => ?_⟩
    obtain ⟨u', he, -⟩ := h _ List.mem_cons_self
    cases he

/-- The bits of an index above the depth are not looked at. -/
theorem verify_91 (H : Id → Id → Id) (leaf root : Id) (branch : List Id) :
    verifyMerkleProof H leaf branch 6 91 root = verifyMerkleProof H leaf branch 6 27 root := by
  unfold verifyMerkleProof
  split
  · next h =>
    match branch, h with
    | [a, b, c, d, e, f], _ => rfl
  · rfl

/-- The verdict on a decoded value. -/
def judge (env : Env) (net : Net) (now : Nat) (oracle : Oracle) : ContentKey.Beacon → Value → Outcome
  | .bootstrap _, .bootstrap v =>
    if now < fourMonths then .abort
    else if v.2.header.beacon.slot.toNat < now - fourMonths then .invalid
    else
      match oracle.finalizedHeader with
      | none => .valid
      | some h => if h ≠ v.2.header.beacon then .invalid else .valid
  | .updatesByRange _ count, .updates l =>
    if l.1.length ≠ count.toNat then .invalid
    else
      match oracle.store with
      | none => .valid
      | some s => verifyUpdates env net now s l.1
  | .finalityUpdate slot, .finality ⟨.electra, u⟩ =>
    if slot > u.finalized.beacon.slot then .invalid
    else
      match oracle.store with
      | none => .valid
      | some s => verifyUpdate env net now s (genericFinality u)
  | .optimisticUpdate slot, .optimistic ⟨.electra, u⟩ =>
    if slot ≠ u.signatureSlot then .invalid
    else
      match oracle.store with
      | none => .valid
      | some s => verifyUpdate env net now s (genericOptimistic u)
  | .historicalSummaries epoch, .summaries _ s =>
    if s.epoch ≠ epoch then .invalid
    else
      match oracle.stateRoot with
      | none => .valid
      | some root =>
        if verifyMerkleProof env.H (summariesRoot env.H s.summaries.1) s.proof.1 6 91 root then .valid
        else .invalid
  | _, _ => .invalid

theorem validate_decode (env : Env) (net : Net) (now : Nat) (oracle : Oracle) (key : ContentKey.Beacon)
    (bs : Bytes) :
    validate env net now oracle key bs =
      match Value.decode key bs with
      | .error .abort => .abort
      | .error .malformed => .invalid
      | .ok v => judge env net now oracle key v := by
  cases key with
  | bootstrap k =>
    simp only [validate, validateBootstrap, Value.decode]
    cases h : decodeVersioned bootstrapCodec bs with
    | error e => cases e <;> rfl
    | ok v => rfl
  | updatesByRange a b =>
    simp only [validate, validateRange, Value.decode]
    cases h : decodeUpdates bs with
    | error e => cases e <;> rfl
    | ok v => rfl
  | finalityUpdate k =>
    simp only [validate, validateFinality, Value.decode]
    cases h : decodeVersioned finalityCodec bs with
    | error e => cases e <;> rfl
    | ok v => obtain ⟨f, u⟩ := v; cases f <;> rfl
  | optimisticUpdate k =>
    simp only [validate, validateOptimistic, Value.decode]
    cases h : decodeVersioned optimisticCodec bs with
    | error e => cases e <;> rfl
    | ok v => obtain ⟨f, u⟩ := v; cases f <;> rfl
  | historicalSummaries k =>
    simp only [validate, validateSummaries, Value.decode]
    cases h : decodeSummaries bs with
    | error e => cases e <;> rfl
    | ok v => obtain ⟨f, u⟩ := v; rfl

theorem judge_valid (env : Env) (net : Net) (now : Nat) (oracle : Oracle) (key : ContentKey.Beacon) (v : Value)
    (hnow : 864000 ≤ now) :
    judge env net now oracle key v = .valid ↔ Acceptable env net now oracle key v := by
  have hf : fourMonths = 864000 := rfl
  unfold judge
  split
  · next v =>
    simp only [Acceptable, hf]
    rw [if_neg (by omega)]
    split
    · next h => exact ⟨nofun, fun h' => by omega⟩
    · next h =>
      split
      · next ho => exact ⟨fun _ => ⟨by omega, fun h' e => by rw [ho] at e; cases e⟩, fun _ => rfl⟩
      · next hd ho =>
        constructor
        · intro he
          split at he
          · cases he
          · next hne =>
            refine ⟨by omega, fun h' e => ?_⟩
            rw [ho] at e
            cases e
            exact (Classical.byContradiction hne).symm
        · intro he
          rw [if_neg (by rw [he.2 hd ho]; exact fun h => h rfl)]
  · next a count l =>
    simp only [Acceptable]
    split
    · next h => exact ⟨nofun, fun h' => absurd h'.1 h⟩
    · next h =>
      have hl : l.1.length = count.toNat := Classical.byContradiction h
      split
      · next ho => exact ⟨fun _ => ⟨hl, fun s e => by rw [ho] at e; cases e⟩, fun _ => rfl⟩
      · next s ho =>
        rw [verifyUpdates_valid]
        constructor
        · intro h1
          refine ⟨hl, fun s' e => ?_⟩
          rw [ho] at e; cases e; exact h1
        · exact fun h1 => h1.2 s ho
  · next slot u =>
    simp only [Acceptable]
    split
    · next h =>
      refine ⟨nofun, fun ⟨u', he, h1, _⟩ => ?_⟩
      cases he
      exact absurd h (UInt64.not_lt.mpr h1)
    · next h =>
      have hl := UInt64.not_lt.mp h
      split
      · next ho => exact ⟨fun _ => ⟨u, rfl, hl, fun s e => by rw [ho] at e; cases e⟩, fun _ => rfl⟩
      · next s ho =>
        rw [verifyUpdate_valid, verify_finality_iff]
        constructor
        · intro h1
          refine ⟨u, rfl, hl, fun s' e => ?_⟩
          rw [ho] at e; cases e; exact h1
        · rintro ⟨u', he, -, h1⟩
          cases he
          exact h1 s ho
  · next slot u =>
    simp only [Acceptable]
    split
    · next h =>
      refine ⟨nofun, fun ⟨u', he, h1, _⟩ => ?_⟩
      cases he
      exact absurd h1.symm h
    · next h =>
      have hl : u.signatureSlot = slot := (Classical.byContradiction h).symm
      split
      · next ho => exact ⟨fun _ => ⟨u, rfl, hl, fun s e => by rw [ho] at e; cases e⟩, fun _ => rfl⟩
      · next s ho =>
        rw [verifyUpdate_valid, verify_optimistic_iff]
        constructor
        · intro h1
          refine ⟨u, rfl, hl, fun s' e => ?_⟩
          rw [ho] at e; cases e; exact h1
        · rintro ⟨u', he, -, h1⟩
          cases he
          exact h1 s ho
  · next epoch f s =>
    simp only [Acceptable]
    split
    · next h => exact ⟨nofun, fun h' => absurd h'.1 h⟩
    · next h =>
      have hl : s.epoch = epoch := Classical.byContradiction h
      split
      · next ho => exact ⟨fun _ => ⟨hl, fun r e => by rw [ho] at e; cases e⟩, fun _ => rfl⟩
      · next root ho =>
        rw [verify_91]
        constructor
        · intro h1
          refine ⟨hl, fun r e => ?_⟩
          rw [ho] at e; cases e
          split at h1
          · next h2 => exact h2
          · cases h1
        · intro h1
          rw [if_pos (h1.2 root ho)]
  · next h1 h2 h3 h4 h5 =>
    refine ⟨nofun, fun h => ?_⟩
    unfold Acceptable at h
    split at h
    · exact (h1 _ _ rfl rfl).elim
    · exact (h2 _ _ _ rfl rfl).elim
    · obtain ⟨u, rfl, -⟩ := h
      exact (h3 _ _ rfl rfl).elim
    · obtain ⟨u, rfl, -⟩ := h
      exact (h4 _ _ rfl rfl).elim
    · exact (h5 _ _ _ rfl rfl).elim
    · exact h.elim

theorem verify_no_panic (env : Env) (net : Net) (now : Nat) (s : Store) (u : LightClient.Update)
    (hc : ∀ k ∈ s.current.pubkeys, env.keyOk k = true)
    (hn : ∀ c, s.next = some c → ∀ k ∈ c.pubkeys, env.keyOk k = true) :
    LightClient.verify env net.config now s u ≠ .error .panic := by
  intro h
  unfold LightClient.verify at h
  simp only at h
  split at h
  · cases h
  split at h
  · cases h
  split at h
  · cases h
  next hp =>
  split at h
  · cases h
  split at h
  · cases h
  split at h
  · cases h
  have hsub : ∀ (c : Committee), (∀ k ∈ c.pubkeys, env.keyOk k = true) →
      checkSignature env net.config c u ≠ .error .panic := by
    intro c hk h
    unfold checkSignature at h
    simp only at h
    have hall : (participatingKeys c u.bits).all env.keyOk = true := by
      rw [List.all_eq_true]
      intro k hm
      simp only [participatingKeys, List.mem_map, List.mem_filter] at hm
      obtain ⟨⟨k', b⟩, ⟨hm, -⟩, rfl⟩ := hm
      exact hk _ (List.of_mem_zip hm).1
    rw [hall] at h
    simp only [Bool.true_eq_false, if_false] at h
    split at h <;> cases h
  unfold signingCommittee at h
  split at h
  · next he =>
    split at he
    · cases he
    · next hne =>
      rcases Classical.byContradiction hp with h' | h'
      · exact hne h'
      · rw [he] at h'; exact absurd h'.1 (by simp)
  · next c he =>
    refine hsub c ?_ h
    split at he
    · cases he; exact hc
    · exact hn c he

end Verif.BeaconValidator
