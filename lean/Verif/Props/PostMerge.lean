import Verif.Lemmas.HeaderValidator
import Verif.Props.Summaries

/-! # C32, C33, C50: post-merge headers -/

namespace Verif.Props
open Verif.HeaderValidator Verif.Merkle

/-- The field roots of a beacon block, of its body and of its execution payload. -/
structure Contents where
  block : Nat → Id
  body : Nat → Id
  payload : Nat → Id

/-- The beacon block with this root has these contents and this execution block hash: field 4 of the
block (8 leaves) is the body, field 9 of the body (16 leaves) is the execution payload, field 12 of the
payload (2^depth leaves) is the block hash. The depth is 4 up to Capella and 5 since Deneb. -/
def CommitsHash (H : Id → Id → Id) (depth : Nat) (beaconRoot hash : Id) (c : Contents) : Prop :=
  beaconRoot = treeRoot H 3 c.block ∧ c.block 4 = treeRoot H 4 c.body ∧
    c.body 9 = treeRoot H depth c.payload ∧ c.payload 12 = hash

/-- The pairs hashed for it. -/
def Contents.pairs (H : Id → Id → Id) (depth : Nat) (c : Contents) : List (Id × Id) :=
  treePairs H 3 c.block ++ treePairs H 4 c.body ++ treePairs H depth c.payload

theorem exec_sound (H : Id → Id → Id) (depth : Nat) (hd : 4 ≤ depth) (idx : Nat) (hash root g : Id)
    (c : Contents)
    (proof : List Id) (hl : proof.length = depth + 7) (hidx : idx = 201 * 2 ^ depth + 12)
    (hv : verifyMerkleProof H hash proof proof.length idx root = true)
    (hg : CommitsHash H depth root g c) :
    hash = g ∨ CollisionBetween H (branchPairs H hash proof idx) (c.pairs H depth) := by
  obtain ⟨block, body, payload⟩ := c
  obtain ⟨rfl, hbody, hpay, rfl⟩ := hg
  simp only at hbody hpay hv
  obtain ⟨_, hroot⟩ := (verify_iff ..).mp hv
  obtain ⟨a, r, rfl, ha, hr⟩ := split_branch proof depth 7 (by omega)
  obtain ⟨b, c, rfl, hb, hc⟩ := split_branch r 4 3 hr
  have hp : 16 ≤ 2 ^ depth := by
    have := Nat.pow_le_pow_right (n := 2) (by omega) hd
    simpa using this
  have hdiv : idx / 2 ^ depth = 201 := by
    rw [hidx, Nat.mul_comm, Nat.mul_add_div (by omega), Nat.div_eq_of_lt (by omega)]
  have hmod : idx % 2 ^ depth = 12 := by
    rw [hidx, Nat.mul_comm, Nat.mul_add_mod, Nat.mod_eq_of_lt (by omega)]
  rw [root_append, root_append, ha, hb, hdiv] at hroot
  rw [branchPairs_append, branchPairs_append, ha, hb, hdiv]
  rcases root_sound H _ 3 block _ c hc hroot with ⟨h1, _⟩ | h
  · rw [hbody] at h1
    rcases root_sound H _ 4 body _ b hb h1 with ⟨h2, _⟩ | h
    · rw [hpay] at h2
      rcases root_sound H _ depth payload _ a ha h2 with ⟨h3, _⟩ | h
      · rw [hmod] at h3; exact Or.inl h3
      · exact Or.inr (h.mono (by intro x hx; simp [hx])
          (by intro x hx; simp only [Contents.pairs, List.mem_append]; exact Or.inr hx))
    · exact Or.inr (h.mono (by intro x hx; simp [hx])
        (by intro x hx; simp only [Contents.pairs, List.mem_append]; exact Or.inl (Or.inr hx)))
  · exact Or.inr (h.mono (by intro x hx; simp [hx])
      (by intro x hx; simp only [Contents.pairs, List.mem_append]; exact Or.inl (Or.inl hx)))

/-- C32, merge to Capella: an accepted header is in the era by number and timestamp, there is a trusted
historical root for its slot, and if that root is the one of a batch of block roots, and the block root at
the slot commits to an execution block hash, then this is the hash of the header, unless a pair hashed
along the proofs collides with a pair hashed for the batch or the block. -/
theorem C32_roots_sound (H : Id → Id → Id) (net : Net) (t : Trusted) (cache source) (h : Header)
    (p : RootsProof) (hacc : (validate H net t cache source h (.roots p)).1 = .accept) :
    net.parisBlock ≤ h.number ∧ h.timestamp < net.shanghaiTime ∧
    ∃ root, t.historicalRoots[p.slot.toNat / 8192]? = some root ∧
      ∀ (blockRoots : Nat → Id) (stateRoot g : Id) (c : Contents),
        root = H (treeRoot H 13 blockRoots) stateRoot →
        CommitsHash H 4 (blockRoots (p.slot.toNat % 8192)) g c →
        h.hash = g ∨ CollisionBetween H
          (branchPairs H h.hash p.executionBlockProof.toList 3228 ++
            branchPairs H p.beaconBlockRoot p.beaconBlockProof.toList
              (2 * 8192 + p.slot.toNat % 8192))
          (c.pairs H 4 ++ (treeRoot H 13 blockRoots, stateRoot) :: treePairs H 13 blockRoots) := by
  simp only [validate, verifyMergeToCapella] at hacc
  split at hacc <;> try cases hacc
  next hp =>
  split at hacc <;> try cases hacc
  next hs =>
  split at hacc <;> try cases hacc
  next he =>
  have he' : verifyExecBellatrix H h.hash p.executionBlockProof.toList p.beaconBlockRoot = true := by
    simpa using he
  refine ⟨by simpa [Net.paris] using hp, by simpa [Net.shanghai] using hs, ?_⟩
  unfold verifyHistoricalRoots at hacc
  cases hr : t.historicalRoots[p.slot.toNat / slotsPerRoot]? with
  | none => rw [hr] at hacc; cases hacc
  | some root =>
    refine ⟨root, rfl, ?_⟩
    intro blockRoots stateRoot g c hroot hg
    rw [hr] at hacc
    simp only at hacc
    split at hacc <;> try cases hacc
    next hm =>
    rw [Option.some.injEq] at hm
    obtain ⟨hl, hb⟩ := (verify_iff ..).mp hm
    have hsp : slotsPerRoot = 8192 := rfl
    have hi : p.slot.toNat % 8192 < 8192 := Nat.mod_lt _ (by omega)
    obtain ⟨b, s, hbs, hbl⟩ := eq_snoc_of_length (d := 13) hl
    have e13 : (2 * slotsPerRoot + p.slot.toNat % slotsPerRoot) / 2 ^ 13 = 2 := by rw [hsp]; omega
    rw [hbs, root_append, hbl, e13, root_cons, if_neg (by omega), hroot] at hb
    have hpairs : branchPairs H p.beaconBlockRoot p.beaconBlockProof.toList
        (2 * 8192 + p.slot.toNat % 8192) =
        branchPairs H p.beaconBlockRoot b (2 * slotsPerRoot + p.slot.toNat % slotsPerRoot) ++
        [(merkleRootFromBranch H p.beaconBlockRoot b
          (2 * slotsPerRoot + p.slot.toNat % slotsPerRoot), s)] := by
      show branchPairs H p.beaconBlockRoot p.beaconBlockProof.toList
        (2 * slotsPerRoot + p.slot.toNat % slotsPerRoot) = _
      rw [hbs, branchPairs_last, hbl, e13, if_neg (by omega)]
    rw [hpairs]
    by_cases hc : (merkleRootFromBranch H p.beaconBlockRoot b
        (2 * slotsPerRoot + p.slot.toNat % slotsPerRoot), s) = (treeRoot H 13 blockRoots, stateRoot)
    · rw [Prod.mk.injEq] at hc
      rcases root_sound H _ 13 blockRoots _ b hbl hc.1 with ⟨h1, _⟩ | hcol
      · have hm2 : (2 * slotsPerRoot + p.slot.toNat % slotsPerRoot) % 2 ^ 13 =
            p.slot.toNat % 8192 := by rw [hsp]; omega
        rw [hm2] at h1
        rw [← h1] at hg
        rcases exec_sound H 4 (by omega) 3228 _ _ g c p.executionBlockProof.toList (by simp)
          (by omega) he' hg with h5 | h5
        · exact Or.inl h5
        · exact Or.inr (h5.mono (by intro x hx; simp [hx]) (by intro x hx; simp [hx]))
      · exact Or.inr (hcol.mono (by intro x hx; simp [hx]) (by intro x hx; simp [hx]))
    · exact Or.inr ⟨_, by simp, (treeRoot H 13 blockRoots, stateRoot), by simp, hc, hb⟩

theorem summaries_sound (H : Id → Id → Id) (trusted cache : List Summary)
    (source : Nat → Option (List Summary)) (slot : UInt64) (root : Id) (proof : List Id)
    (hcache : cache <+: trusted) (hsource : ∀ e l, source e = some l → l <+: trusted)
    (hv : verifySummaries H (getSummary cache source slot.toNat).1 slot root proof = true) :
    firstCapellaSlot ≤ slot.toNat ∧
    ∃ s, trusted[(slot.toNat - firstCapellaSlot) / 8192]? = some s ∧
      ∀ blockRoots : Nat → Id, s.blockSummaryRoot = treeRoot H 13 blockRoots →
        root = blockRoots (slot.toNat % 8192) ∨ CollisionBetween H
          (branchPairs H root proof (8192 + slot.toNat % 8192)) (treePairs H 13 blockRoots) := by
  have hall := C35_all_lookups trusted [(slot.toNat, source)] cache hcache (by
    intro q hq e l; simp at hq; subst hq; exact hsource e l)
  cases hg : (getSummary cache source slot.toNat).1 with
  | none => rw [hg] at hv; cases hv
  | some s =>
    rw [hg] at hv
    obtain ⟨h1, h2⟩ := hall.2 0 s (slot.toNat, source) (by simp [lookups, hg]) (by simp)
    refine ⟨h1, s, h2, ?_⟩
    intro blockRoots hroot
    simp only [verifySummaries] at hv
    obtain ⟨hl, hb⟩ := (verify_iff ..).mp hv
    rw [hroot] at hb
    have hsp : slotsPerRoot = 8192 := rfl
    rcases root_sound H _ 13 blockRoots _ proof hl hb with ⟨h3, _⟩ | hcol
    · left
      have hm2 : (slotsPerRoot + slot.toNat % slotsPerRoot) % 2 ^ 13 = slot.toNat % 8192 := by
        rw [hsp]; omega
      rw [hm2] at h3; exact h3
    · exact Or.inr hcol

/-- C32, Capella to Deneb. The lists known to the node are prefixes of the trusted list of summaries. -/
theorem C32_capella_sound (H : Id → Id → Id) (net : Net) (t : Trusted) (trusted cache : List Summary)
    (source : Nat → Option (List Summary)) (hcache : cache <+: trusted)
    (hsource : ∀ e l, source e = some l → l <+: trusted) (h : Header) (p : CapellaProof)
    (hacc : (validate H net t cache source h (.capella p)).1 = .accept) :
    net.shanghaiTime ≤ h.timestamp ∧ h.timestamp < net.cancunTime ∧
    firstCapellaSlot ≤ p.slot.toNat ∧
    ∃ s, trusted[(p.slot.toNat - firstCapellaSlot) / 8192]? = some s ∧
      ∀ (blockRoots : Nat → Id) (g : Id) (c : Contents),
        s.blockSummaryRoot = treeRoot H 13 blockRoots →
        CommitsHash H 4 (blockRoots (p.slot.toNat % 8192)) g c →
        h.hash = g ∨ CollisionBetween H
          (branchPairs H h.hash p.executionBlockProof.toList 3228 ++
            branchPairs H p.beaconBlockRoot p.beaconBlockProof.toList (8192 + p.slot.toNat % 8192))
          (c.pairs H 4 ++ treePairs H 13 blockRoots) := by
  simp only [validate, verifyCapellaToDeneb] at hacc
  split at hacc <;> try cases hacc
  next hp =>
  split at hacc <;> try cases hacc
  next hs =>
  split at hacc <;> try cases hacc
  next he =>
  simp only at hacc
  split at hacc <;> try cases hacc
  next hv =>
  have he' : verifyExecBellatrix H h.hash p.executionBlockProof.toList p.beaconBlockRoot = true := by
    simpa using he
  obtain ⟨h1, s, h2, h3⟩ := summaries_sound H trusted cache source _ _ _ hcache hsource hv
  refine ⟨by simpa [Net.shanghai] using hp, by simpa [Net.cancun] using hs, h1, s, h2, ?_⟩
  intro blockRoots g c hr hg
  rcases h3 blockRoots hr with h4 | hc
  · rw [← h4] at hg
    rcases exec_sound H 4 (by omega) 3228 _ _ g c p.executionBlockProof.toList (by simp)
      (by omega) he' hg with h5 | h5
    · exact Or.inl h5
    · exact Or.inr (h5.mono (by intro x hx; simp [hx]) (by intro x hx; simp [hx]))
  · exact Or.inr (hc.mono (by intro x hx; simp [hx]) (by intro x hx; simp [hx]))

/-- C32, Deneb and later. -/
theorem C32_deneb_sound (H : Id → Id → Id) (net : Net) (t : Trusted) (trusted cache : List Summary)
    (source : Nat → Option (List Summary)) (hcache : cache <+: trusted)
    (hsource : ∀ e l, source e = some l → l <+: trusted) (h : Header) (p : DenebProof)
    (hacc : (validate H net t cache source h (.deneb p)).1 = .accept) :
    net.cancunTime ≤ h.timestamp ∧ firstCapellaSlot ≤ p.slot.toNat ∧
    ∃ s, trusted[(p.slot.toNat - firstCapellaSlot) / 8192]? = some s ∧
      ∀ (blockRoots : Nat → Id) (g : Id) (c : Contents),
        s.blockSummaryRoot = treeRoot H 13 blockRoots →
        CommitsHash H 5 (blockRoots (p.slot.toNat % 8192)) g c →
        h.hash = g ∨ CollisionBetween H
          (branchPairs H h.hash p.executionBlockProof.toList 6444 ++
            branchPairs H p.beaconBlockRoot p.beaconBlockProof.toList (8192 + p.slot.toNat % 8192))
          (c.pairs H 5 ++ treePairs H 13 blockRoots) := by
  simp only [validate, verifyPostDeneb] at hacc
  split at hacc <;> try cases hacc
  next hp =>
  split at hacc <;> try cases hacc
  next he =>
  simp only at hacc
  split at hacc <;> try cases hacc
  next hv =>
  have he' : verifyExecDeneb H h.hash p.executionBlockProof.toList p.beaconBlockRoot = true := by
    simpa using he
  obtain ⟨h1, s, h2, h3⟩ := summaries_sound H trusted cache source _ _ _ hcache hsource hv
  refine ⟨by simpa [Net.cancun] using hp, h1, s, h2, ?_⟩
  intro blockRoots g c hr hg
  rcases h3 blockRoots hr with h4 | hc
  · rw [← h4] at hg
    rcases exec_sound H 5 (by omega) 6444 _ _ g c p.executionBlockProof.toList (by simp)
      (by omega) he' hg with h5 | h5
    · exact Or.inl h5
    · exact Or.inr (h5.mono (by intro x hx; simp [hx]) (by intro x hx; simp [hx]))
  · exact Or.inr (hc.mono (by intro x hx; simp [hx]) (by intro x hx; simp [hx]))

/-- C32: the proof type with which a received header is decoded is the only one the fork rules allow for
an acceptance, when Shanghai and Cancun come in this order and no post-merge block has a Shanghai
timestamp before the merge. -/
theorem C32_kind (H : Id → Id → Id) (net : Net) (t : Trusted) (cache source) (h : Header)
    (p : HeaderProof) (hnet : net.shanghaiTime ≤ net.cancunTime)
    (hreal : net.shanghaiTime ≤ h.timestamp → net.parisBlock ≤ h.number)
    (hacc : (validate H net t cache source h p).1 = .accept) : p.kind = decodedKind net h := by
  have le_trans : ∀ {a b c : UInt64}, a ≤ b → b ≤ c → a ≤ c := by
    intro a b c h1 h2
    rw [UInt64.le_iff_toNat_le] at *
    omega
  cases p with
  | hashes p =>
    simp only [validate, verifyPreMerge] at hacc
    split at hacc
    · cases hacc
    · next hp =>
      have h0 : ¬ net.parisBlock ≤ h.number := by simpa [Net.paris] using hp
      have h1 : ¬ net.shanghaiTime ≤ h.timestamp := fun x => h0 (hreal x)
      have h2 : ¬ net.cancunTime ≤ h.timestamp := fun x => h1 (le_trans hnet x)
      simp [decodedKind, Net.cancun, Net.shanghai, Net.paris, h0, h1, h2, HeaderProof.kind]
  | roots p =>
    simp only [validate, verifyMergeToCapella] at hacc
    split at hacc <;> try cases hacc
    next hp =>
    split at hacc <;> try cases hacc
    next hs =>
    have h0 : net.parisBlock ≤ h.number := by simpa [Net.paris] using hp
    have h1 : ¬ net.shanghaiTime ≤ h.timestamp := by simpa [Net.shanghai] using hs
    have h2 : ¬ net.cancunTime ≤ h.timestamp := fun x => h1 (le_trans hnet x)
    simp [decodedKind, Net.cancun, Net.shanghai, Net.paris, h0, h1, h2, HeaderProof.kind]
  | capella p =>
    simp only [validate, verifyCapellaToDeneb] at hacc
    split at hacc <;> try cases hacc
    next hp =>
    split at hacc <;> try cases hacc
    next hs =>
    have h1 : net.shanghaiTime ≤ h.timestamp := by simpa [Net.shanghai] using hp
    have h2 : ¬ net.cancunTime ≤ h.timestamp := by simpa [Net.cancun] using hs
    simp [decodedKind, Net.cancun, Net.shanghai, h1, h2, HeaderProof.kind]
  | deneb p =>
    simp only [validate, verifyPostDeneb] at hacc
    split at hacc <;> try cases hacc
    next hp =>
    have h2 : net.cancunTime ≤ h.timestamp := by simpa [Net.cancun] using hp
    simp [decodedKind, Net.cancun, h2, HeaderProof.kind]

/-- C32: for one slot and one trusted root no two headers of the same era with different hashes are both
accepted, unless pairs hashed along the proofs collide; no assumption on what the trusted root commits to. -/
theorem C32_roots_unique (H : Id → Id → Id) (net : Net) (t : Trusted) (c₁ c₂ s₁ s₂) (h₁ h₂ : Header)
    (p₁ p₂ : RootsProof) (hslot : p₁.slot = p₂.slot)
    (a₁ : (validate H net t c₁ s₁ h₁ (.roots p₁)).1 = .accept)
    (a₂ : (validate H net t c₂ s₂ h₂ (.roots p₂)).1 = .accept) :
    h₁.hash = h₂.hash ∨ CollisionBetween H
      (branchPairs H h₁.hash p₁.executionBlockProof.toList 3228 ++
        branchPairs H p₁.beaconBlockRoot p₁.beaconBlockProof.toList (2 * 8192 + p₁.slot.toNat % 8192))
      (branchPairs H h₂.hash p₂.executionBlockProof.toList 3228 ++
        branchPairs H p₂.beaconBlockRoot p₂.beaconBlockProof.toList
          (2 * 8192 + p₁.slot.toNat % 8192)) := by
  have key : ∀ (c s) (h : Header) (p : RootsProof),
      (validate H net t c s h (.roots p)).1 = .accept →
      ∃ r, t.historicalRoots[p.slot.toNat / slotsPerRoot]? = some r ∧
        merkleRootFromBranch H h.hash p.executionBlockProof.toList 3228 = p.beaconBlockRoot ∧
        merkleRootFromBranch H p.beaconBlockRoot p.beaconBlockProof.toList
          (2 * slotsPerRoot + p.slot.toNat % slotsPerRoot) = r := by
    intro c s h p hacc
    simp only [validate, verifyMergeToCapella] at hacc
    split at hacc <;> try cases hacc
    split at hacc <;> try cases hacc
    split at hacc <;> try cases hacc
    next he =>
    unfold verifyHistoricalRoots at hacc
    cases hr : t.historicalRoots[p.slot.toNat / slotsPerRoot]? with
    | none => rw [hr] at hacc; cases hacc
    | some root =>
      rw [hr] at hacc
      simp only at hacc
      split at hacc <;> try cases hacc
      next hm =>
      rw [Option.some.injEq] at hm
      have he' : verifyExecBellatrix H h.hash p.executionBlockProof.toList p.beaconBlockRoot = true := by
        simpa using he
      exact ⟨root, rfl, ((verify_iff ..).mp he').2, ((verify_iff ..).mp hm).2⟩
  obtain ⟨r1, x1, y1, z1⟩ := key _ _ _ _ a₁
  obtain ⟨r2, x2, y2, z2⟩ := key _ _ _ _ a₂
  rw [hslot] at x1 z1
  rw [x1] at x2
  cases x2
  rcases root_binding H _ 14 _ _ _ _ (by simp) (by simp) (z1.trans z2.symm) with ⟨e, _⟩ | hc
  · rcases root_binding H _ 11 _ _ _ _ (by simp) (by simp) (y1.trans (e.trans y2.symm)) with h5 | h5
    · exact Or.inl h5.1
    · exact Or.inr (h5.mono (by intro x hx; simp [hx]) (by intro x hx; simp [hx]))
  · rw [hslot]
    exact Or.inr (CollisionBetween.mono hc (by intro x hx; exact List.mem_append_right _ hx)
      (by intro x hx; exact List.mem_append_right _ hx))

/-- What an accepted proof with a summary shows, whatever the summary commits to. -/
theorem summaries_branch (H : Id → Id → Id) (trusted cache : List Summary)
    (source : Nat → Option (List Summary)) (slot : UInt64) (root : Id) (proof : List Id)
    (hcache : cache <+: trusted) (hsource : ∀ e l, source e = some l → l <+: trusted)
    (hv : verifySummaries H (getSummary cache source slot.toNat).1 slot root proof = true) :
    proof.length = 13 ∧ ∃ s, trusted[(slot.toNat - firstCapellaSlot) / 8192]? = some s ∧
      merkleRootFromBranch H root proof (8192 + slot.toNat % 8192) = s.blockSummaryRoot := by
  have hall := C35_all_lookups trusted [(slot.toNat, source)] cache hcache (by
    intro q hq e l; simp at hq; subst hq; exact hsource e l)
  cases hg : (getSummary cache source slot.toNat).1 with
  | none => rw [hg] at hv; cases hv
  | some s =>
    rw [hg] at hv
    obtain ⟨-, h2⟩ := hall.2 0 s (slot.toNat, source) (by simp [lookups, hg]) (by simp)
    simp only [verifySummaries] at hv
    obtain ⟨hl, hb⟩ := (verify_iff ..).mp hv
    exact ⟨hl, s, h2, hb⟩

/-- C32: the same for summaries, Capella to Deneb. The two validators may know lists of different lengths. -/
theorem C32_capella_unique (H : Id → Id → Id) (net : Net) (t : Trusted) (trusted c₁ c₂ : List Summary)
    (s₁ s₂ : Nat → Option (List Summary)) (hc₁ : c₁ <+: trusted) (hc₂ : c₂ <+: trusted)
    (hs₁ : ∀ e l, s₁ e = some l → l <+: trusted) (hs₂ : ∀ e l, s₂ e = some l → l <+: trusted)
    (h₁ h₂ : Header) (p₁ p₂ : CapellaProof) (hslot : p₁.slot = p₂.slot)
    (a₁ : (validate H net t c₁ s₁ h₁ (.capella p₁)).1 = .accept)
    (a₂ : (validate H net t c₂ s₂ h₂ (.capella p₂)).1 = .accept) :
    h₁.hash = h₂.hash ∨ CollisionBetween H
      (branchPairs H h₁.hash p₁.executionBlockProof.toList 3228 ++
        branchPairs H p₁.beaconBlockRoot p₁.beaconBlockProof.toList (8192 + p₁.slot.toNat % 8192))
      (branchPairs H h₂.hash p₂.executionBlockProof.toList 3228 ++
        branchPairs H p₂.beaconBlockRoot p₂.beaconBlockProof.toList (8192 + p₁.slot.toNat % 8192)) := by
  have key : ∀ (c : List Summary) (s : Nat → Option (List Summary)) (h : Header) (p : CapellaProof), c <+: trusted →
      (∀ e l, s e = some l → l <+: trusted) → (validate H net t c s h (.capella p)).1 = .accept →
      p.beaconBlockProof.toList.length = 13 ∧
      merkleRootFromBranch H h.hash p.executionBlockProof.toList 3228 = p.beaconBlockRoot ∧
      ∃ r, trusted[(p.slot.toNat - firstCapellaSlot) / 8192]? = some r ∧
        merkleRootFromBranch H p.beaconBlockRoot p.beaconBlockProof.toList (8192 + p.slot.toNat % 8192) =
          r.blockSummaryRoot := by
    intro c s h p hc hs hacc
    simp only [validate, verifyCapellaToDeneb] at hacc
    split at hacc <;> try cases hacc
    split at hacc <;> try cases hacc
    split at hacc <;> try cases hacc
    next he =>
    simp only at hacc
    split at hacc <;> try cases hacc
    next hv =>
    have he' : verifyExecBellatrix H h.hash p.executionBlockProof.toList p.beaconBlockRoot = true := by
      simpa using he
    obtain ⟨hl, r, h2, h3⟩ := summaries_branch H trusted c s _ _ _ hc hs hv
    exact ⟨hl, ((verify_iff ..).mp he').2, r, h2, h3⟩
  obtain ⟨l1, y1, r1, x1, z1⟩ := key _ _ _ _ hc₁ hs₁ a₁
  obtain ⟨l2, y2, r2, x2, z2⟩ := key _ _ _ _ hc₂ hs₂ a₂
  rw [hslot] at x1 z1
  rw [x1] at x2
  cases x2
  rcases root_binding H _ 13 _ _ _ _ l1 l2 (z1.trans z2.symm) with ⟨e, _⟩ | hc
  · rcases root_binding H _ 11 _ _ _ _ (by simp) (by simp) (y1.trans (e.trans y2.symm)) with h5 | h5
    · exact Or.inl h5.1
    · exact Or.inr (h5.mono (by intro x hx; simp [hx]) (by intro x hx; simp [hx]))
  · rw [hslot]
    exact Or.inr (CollisionBetween.mono hc (by intro x hx; exact List.mem_append_right _ hx)
      (by intro x hx; exact List.mem_append_right _ hx))

/-- C32: the same for summaries, Deneb and later. The two validators may know lists of different lengths. -/
theorem C32_deneb_unique (H : Id → Id → Id) (net : Net) (t : Trusted) (trusted c₁ c₂ : List Summary)
    (s₁ s₂ : Nat → Option (List Summary)) (hc₁ : c₁ <+: trusted) (hc₂ : c₂ <+: trusted)
    (hs₁ : ∀ e l, s₁ e = some l → l <+: trusted) (hs₂ : ∀ e l, s₂ e = some l → l <+: trusted)
    (h₁ h₂ : Header) (p₁ p₂ : DenebProof) (hslot : p₁.slot = p₂.slot)
    (a₁ : (validate H net t c₁ s₁ h₁ (.deneb p₁)).1 = .accept)
    (a₂ : (validate H net t c₂ s₂ h₂ (.deneb p₂)).1 = .accept) :
    h₁.hash = h₂.hash ∨ CollisionBetween H
      (branchPairs H h₁.hash p₁.executionBlockProof.toList 6444 ++
        branchPairs H p₁.beaconBlockRoot p₁.beaconBlockProof.toList (8192 + p₁.slot.toNat % 8192))
      (branchPairs H h₂.hash p₂.executionBlockProof.toList 6444 ++
        branchPairs H p₂.beaconBlockRoot p₂.beaconBlockProof.toList (8192 + p₁.slot.toNat % 8192)) := by
  have key : ∀ (c : List Summary) (s : Nat → Option (List Summary)) (h : Header) (p : DenebProof), c <+: trusted →
      (∀ e l, s e = some l → l <+: trusted) → (validate H net t c s h (.deneb p)).1 = .accept →
      p.beaconBlockProof.toList.length = 13 ∧
      merkleRootFromBranch H h.hash p.executionBlockProof.toList 6444 = p.beaconBlockRoot ∧
      ∃ r, trusted[(p.slot.toNat - firstCapellaSlot) / 8192]? = some r ∧
        merkleRootFromBranch H p.beaconBlockRoot p.beaconBlockProof.toList (8192 + p.slot.toNat % 8192) =
          r.blockSummaryRoot := by
    intro c s h p hc hs hacc
    simp only [validate, verifyPostDeneb] at hacc
    split at hacc <;> try cases hacc
    split at hacc <;> try cases hacc
    next he =>
    simp only at hacc
    split at hacc <;> try cases hacc
    next hv =>
    have he' : verifyExecDeneb H h.hash p.executionBlockProof.toList p.beaconBlockRoot = true := by
      simpa using he
    obtain ⟨hl, r, h2, h3⟩ := summaries_branch H trusted c s _ _ _ hc hs hv
    exact ⟨hl, ((verify_iff ..).mp he').2, r, h2, h3⟩
  obtain ⟨l1, y1, r1, x1, z1⟩ := key _ _ _ _ hc₁ hs₁ a₁
  obtain ⟨l2, y2, r2, x2, z2⟩ := key _ _ _ _ hc₂ hs₂ a₂
  rw [hslot] at x1 z1
  rw [x1] at x2
  cases x2
  rcases root_binding H _ 13 _ _ _ _ l1 l2 (z1.trans z2.symm) with ⟨e, _⟩ | hc
  · rcases root_binding H _ 12 _ _ _ _ (by simp) (by simp) (y1.trans (e.trans y2.symm)) with h5 | h5
    · exact Or.inl h5.1
    · exact Or.inr (h5.mono (by intro x hx; simp [hx]) (by intro x hx; simp [hx]))
  · rw [hslot]
    exact Or.inr (CollisionBetween.mono hc (by intro x hx; exact List.mem_append_right _ hx)
      (by intro x hx; exact List.mem_append_right _ hx))

/-- Headers right after Capella and right after Deneb that are accepted, by a summary list of one or two entries. -/
example : (validate (fun a b => a + b) ⟨15537394, 1681338455, 1710338135⟩ ⟨[], []⟩ [⟨5, 0⟩] (fun _ => none)
    ⟨17034870, 1681338479, 5⟩ (.capella ⟨Vector.replicate 13 0, 5, Vector.replicate 11 0, 6209536⟩)).1 = .accept := by
  decide +kernel
example : (validate (fun a b => a + b) ⟨15537394, 1681338455, 1710338135⟩ ⟨[], []⟩ []
    (fun _ => some [⟨7, 0⟩, ⟨5, 0⟩]) ⟨19426587, 1710338135, 5⟩
    (.deneb ⟨Vector.replicate 13 0, 5, Vector.replicate 12 0, 6217729⟩)).1 = .accept := by
  decide +kernel

/-! ## C33 -/

/-- C33 does not hold: for every network, every header between the merge and Shanghai and every slot
beyond the frozen list, anyone can make a proof that aborts the validation. -/
theorem C33_violated (H : Id → Id → Id) (net : Net) (t : Trusted) (cache source) (h : Header)
    (hn : net.parisBlock ≤ h.number) (ht : h.timestamp < net.shanghaiTime)
    (execProof : Vector Id 11) (blockProof : Vector Id 14) (slot : UInt64)
    (hslot : 8192 * t.historicalRoots.length ≤ slot.toNat) :
    ∃ p : RootsProof, p.executionBlockProof = execProof ∧ p.slot = slot ∧
      (validate H net t cache source h (.roots p)).1 = .abort := by
  refine ⟨⟨blockProof, merkleRootFromBranch H h.hash execProof.toList 3228, execProof, slot⟩, rfl,
    rfl, ?_⟩
  have h1 : net.paris h.number = true := by simpa [Net.paris] using hn
  have h2 : net.shanghai h.timestamp = false := by simpa [Net.shanghai] using ht
  have h3 : verifyExecBellatrix H h.hash execProof.toList
      (merkleRootFromBranch H h.hash execProof.toList 3228) = true :=
    (verify_iff ..).mpr ⟨rfl, rfl⟩
  have h4 : t.historicalRoots[slot.toNat / slotsPerRoot]? = none :=
    List.getElem?_eq_none (by show _ ≤ slot.toNat / 8192; omega)
  simp [validate, verifyMergeToCapella, h1, h2, h3, verifyHistoricalRoots, h4]

/-- C33, what holds: with an epoch list that reaches the merge, the only proofs that abort the validation
are those of the merge-to-Capella type with a slot beyond the frozen list. (Missing for the full property:
exactly these slots.) -/
theorem C33_no_abort_partial (H : Id → Id → Id) (net : Net) (t : Trusted) (cache source) (h : Header)
    (p : HeaderProof) (hcover : net.parisBlock.toNat ≤ 8192 * t.epochs.length)
    (hslot : ∀ q, p = .roots q → q.slot.toNat < 8192 * t.historicalRoots.length) :
    (validate H net t cache source h p).1 ≠ .abort := by
  cases p with
  | hashes p =>
    simp only [validate, verifyPreMerge]
    split
    · simp
    · next hp =>
      have hlt : h.number.toNat < net.parisBlock.toNat := by
        have : ¬ net.parisBlock ≤ h.number := by simpa [Net.paris] using hp
        rw [UInt64.le_iff_toNat_le] at this
        omega
      rw [List.getElem?_eq_getElem (by show h.number.toNat / 8192 < _; omega)]
      simp only
      split <;> simp
  | roots p =>
    have := hslot p rfl
    simp only [validate, verifyMergeToCapella, verifyHistoricalRoots]
    rw [List.getElem?_eq_getElem (by show p.slot.toNat / 8192 < _; omega)]
    simp only
    repeat' split
    all_goals first | (next h => cases h; done) | simp
  | capella p =>
    simp only [validate, verifyCapellaToDeneb]
    repeat' split
    all_goals simp
  | deneb p =>
    simp only [validate, verifyPostDeneb]
    repeat' split
    all_goals simp

/-- The shipped mainnet data: 1897 epoch roots (merge_macc.bin, 60708 bytes) and 758 historical roots
(historical_roots.ssz, 24256 bytes). The epoch list reaches the merge block 15537394. -/
example : (15537394 : UInt64).toNat ≤ 8192 * 1897 := by decide

/-- A mainnet header right after the merge and slot 6209536, the first one beyond the frozen list, abort
the node. -/
example (roots : List Id) (hl : roots.length = 758) : ∃ p : RootsProof, p.slot = 6209536 ∧
    (validate (fun a b => a + b) ⟨15537394, 1681338455, 1710338135⟩ ⟨[], roots⟩ [] (fun _ => none)
      ⟨15537394, 1663224179, 1⟩ (.roots p)).1 = .abort := by
  obtain ⟨p, _, h1, h2⟩ := C33_violated (fun a b => a + b) ⟨15537394, 1681338455, 1710338135⟩
    ⟨[], roots⟩ [] (fun _ => none) ⟨15537394, 1663224179, 1⟩ (by decide) (by decide)
    (Vector.replicate 11 0) (Vector.replicate 14 0) 6209536
    (by show 8192 * roots.length ≤ _; rw [hl]; decide)
  exact ⟨p, h1, h2⟩

end Verif.Props
