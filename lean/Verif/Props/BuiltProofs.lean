import Verif.Props.PostMerge

/-! # C50: locally built post-merge proofs are accepted -/

namespace Verif.Props
open Verif.HeaderValidator Verif.Merkle

/-- The depth of the tree of an execution payload: 14 and 15 fields up to Capella, 17 since Deneb. -/
def payloadDepth : Fork → Nat
  | .bellatrix | .capella => 4
  | .deneb | .electra => 5

theorem payload_depth {fork : Fork} (b : Block fork) :
    depthFor b.payloadLeaves.length = payloadDepth fork := by
  have : b.payloadLeaves.length = 13 + fork.payloadRest := by
    simp [Block.payloadLeaves]; omega
  rw [this]
  cases fork <;> decide

theorem body_depth (H : Id → Id → Id) {fork : Fork} (b : Block fork) :
    depthFor (b.bodyLeaves H).length = 4 := by
  have : (b.bodyLeaves H).length = 10 + fork.bodyRest := by
    simp [Block.bodyLeaves]; omega
  rw [this]
  cases fork <;> decide

theorem block_depth (H : Id → Id → Id) {fork : Fork} (b : Block fork) :
    depthFor (b.blockLeaves H).length = 3 := by
  have : (b.blockLeaves H).length = 5 := by simp [Block.blockLeaves]
  rw [this]; decide

/-- The proof of the execution block hash leads to the block root. -/
theorem exec_built (H : Id → Id → Id) {fork : Fork} (b : Block fork) (d idx : Nat)
    (hd : depthFor b.payloadLeaves.length = d) (hd4 : 4 ≤ d) (hidx : idx = 201 * 2 ^ d + 12) :
    (b.executionBlockHashProof H).length = d + 7 ∧
    merkleRootFromBranch H b.blockHash (b.executionBlockHashProof H) idx = b.root H := by
  have hp : 16 ≤ 2 ^ d := by
    have := Nat.pow_le_pow_right (n := 2) (by omega) hd4
    simpa using this
  have hdiv : idx / 2 ^ d = 201 := by
    rw [hidx, Nat.mul_comm, Nat.mul_add_div (by omega), Nat.div_eq_of_lt (by omega)]
  have hmod : idx % 2 ^ d = 12 := by
    rw [hidx, Nat.mul_comm, Nat.mul_add_mod, Nat.mod_eq_of_lt (by omega)]
  have l1 : (buildProof H b.payloadLeaves 12).length = d := by rw [buildProof_length, hd]
  have l2 : (buildProof H (b.bodyLeaves H) 9).length = 4 := by rw [buildProof_length, body_depth]
  have l3 : (buildProof H (b.blockLeaves H) 4).length = 3 := by rw [buildProof_length, block_depth]
  have g1 : b.payloadLeaves.getD 12 0 = b.blockHash := by simp [Block.payloadLeaves]
  have g2 : (b.bodyLeaves H).getD 9 0 = b.payloadRoot H := by simp [Block.bodyLeaves]
  have g3 : (b.blockLeaves H).getD 4 0 = b.bodyRoot H := by simp [Block.blockLeaves]
  have r1 := buildProof_root_mod H b.payloadLeaves 12 idx (by simp [Block.payloadLeaves])
    (by rw [hd, hmod])
  have r2 := buildProof_root_mod H (b.bodyLeaves H) 9 201 (by simp [Block.bodyLeaves])
    (by rw [body_depth])
  have r3 := buildProof_root_mod H (b.blockLeaves H) 4 12 (by simp [Block.blockLeaves])
    (by rw [block_depth])
  constructor
  · simp only [Block.executionBlockHashProof, List.length_append, l1, l2, l3]
  · rw [Block.executionBlockHashProof, root_append, root_append, List.length_append, l1, l2,
      ← g1, r1, hdiv]
    have e : idx / 2 ^ (d + 4) = 12 := by
      rw [Nat.pow_add, ← Nat.div_div_eq_div_mul, hdiv]
    rw [e]
    show merkleRootFromBranch H (merkleRootFromBranch H (b.payloadRoot H) _ 201) _ 12 = _
    rw [← g2, r2]
    show merkleRootFromBranch H (b.bodyRoot H) _ 12 = _
    rw [← g3, r3]
    rfl

theorem fixed_eq (n : Nat) (l : List Id) (h : l.length = n) :
    ∃ v : Vector Id n, fixed n l = some v ∧ v.toList = l := by
  refine ⟨Vector.mk l.toArray (by simpa using h), ?_, by simp⟩
  rw [fixed, dif_pos h]

theorem roots_depth (v : Vector Id 8192) : depthFor v.toList.length = 13 := by
  simp [depthFor]; decide

theorem roots_built (H : Id → Id → Id) (v : Vector Id 8192) (slot k : Nat) (root : Id)
    (hroot : v.toList[slot % 8192]? = some root) :
    (buildProof H v.toList (slot % 8192)).length = 13 ∧
    merkleRootFromBranch H root (buildProof H v.toList (slot % 8192)) (8192 * k + slot % 8192) =
      containerRoot H v.toList := by
  have hg : v.toList.getD (slot % 8192) 0 = root := by
    rw [List.getD_eq_getElem?_getD, hroot]; rfl
  refine ⟨by rw [buildProof_length, roots_depth], ?_⟩
  have hlt : slot % 8192 < 8192 := Nat.mod_lt _ (by omega)
  rw [← hg]
  exact buildProof_root_mod H v.toList _ _ (by simp; omega) (by rw [roots_depth]; omega)

/-- C50, merge to Capella: for every beacon block of that fork, every batch of roots that has it at its
slot, and every trusted list that has the root of the batch, the proof is built and accepted. -/
theorem C50_roots (H : Id → Id → Id) (net : Net) (t : Trusted) (cache source) (h : Header)
    (slot : UInt64) (blockRoots stateRoots : Vector Id 8192) (b : Block .bellatrix)
    (hn : net.parisBlock ≤ h.number) (ht : h.timestamp < net.shanghaiTime)
    (hhash : b.blockHash = h.hash)
    (hslot : blockRoots.toList[slot.toNat % 8192]? = some (b.root H))
    (htrusted : t.historicalRoots[slot.toNat / 8192]? =
      some (H (containerRoot H blockRoots.toList) (containerRoot H stateRoots.toList))) :
    ∃ p, buildRootsProof H slot blockRoots stateRoots b = some p ∧
      (validate H net t cache source h (.roots p)).1 = .accept := by
  obtain ⟨el, er⟩ := exec_built H b 4 3228 (payload_depth b) (by omega) (by omega)
  obtain ⟨bl, br⟩ := roots_built H blockRoots slot.toNat 2 _ hslot
  obtain ⟨ep, he, hel⟩ := fixed_eq 11 _ el
  obtain ⟨bp, hb, hbl⟩ := fixed_eq 14 (buildProof H blockRoots.toList (slot.toNat % 8192) ++
    [containerRoot H stateRoots.toList]) (by simp [bl])
  refine ⟨⟨bp, b.root H, ep, slot⟩, ?_, ?_⟩
  · simp only [buildRootsProof, slotsPerRoot, hb, he]; rfl
  · have h1 : net.paris h.number = true := by simpa [Net.paris] using hn
    have h2 : net.shanghai h.timestamp = false := by simpa [Net.shanghai] using ht
    have h3 : verifyExecBellatrix H h.hash ep.toList (b.root H) = true :=
      (verify_iff ..).mpr ⟨rfl, by rw [hel, ← hhash]; exact er⟩
    have h4 : verifyHistoricalRoots H t.historicalRoots slot (b.root H) bp.toList = some true := by
      unfold verifyHistoricalRoots
      rw [htrusted]
      simp only [Option.some.injEq]
      refine (verify_iff ..).mpr ⟨by simp, ?_⟩
      have e : (2 * slotsPerRoot + slot.toNat % slotsPerRoot) / 2 ^ 13 = 2 := by
        show (2 * 8192 + slot.toNat % 8192) / 2 ^ 13 = 2; omega
      rw [hbl, root_append, bl, e, root_cons, if_neg (by omega)]
      show H (merkleRootFromBranch H (b.root H) _ (8192 * 2 + slot.toNat % 8192)) _ = _
      rw [br]
    simp [validate, verifyMergeToCapella, h1, h2, h3, h4]

/-- C50, Capella to Deneb. -/
theorem C50_capella (H : Id → Id → Id) (net : Net) (t : Trusted) (cache source) (h : Header)
    (slot : UInt64) (blockRoots : Vector Id 8192) (b : Block .capella) (s : Summary)
    (ht : net.shanghaiTime ≤ h.timestamp) (ht' : h.timestamp < net.cancunTime)
    (hhash : b.blockHash = h.hash)
    (hslot : blockRoots.toList[slot.toNat % 8192]? = some (b.root H))
    (htrusted : (getSummary cache source slot.toNat).1 = some s)
    (hs : s.blockSummaryRoot = containerRoot H blockRoots.toList) :
    ∃ p, buildCapellaProof H slot blockRoots b = some p ∧
      (validate H net t cache source h (.capella p)).1 = .accept := by
  obtain ⟨el, er⟩ := exec_built H b 4 3228 (payload_depth b) (by omega) (by omega)
  obtain ⟨bl, br⟩ := roots_built H blockRoots slot.toNat 1 _ hslot
  obtain ⟨ep, he, hel⟩ := fixed_eq 11 _ el
  obtain ⟨bp, hb, hbl⟩ := fixed_eq 13 _ bl
  refine ⟨⟨bp, b.root H, ep, slot⟩, ?_, ?_⟩
  · simp only [buildCapellaProof, slotsPerRoot, hb, he]; rfl
  · have h1 : net.shanghai h.timestamp = true := by simpa [Net.shanghai] using ht
    have h2 : net.cancun h.timestamp = false := by simpa [Net.cancun] using ht'
    have h3 : verifyExecBellatrix H h.hash ep.toList (b.root H) = true :=
      (verify_iff ..).mpr ⟨rfl, by rw [hel, ← hhash]; exact er⟩
    have h4 : verifySummaries H (some s) slot (b.root H) bp.toList = true := by
      refine (verify_iff ..).mpr ⟨by simp, ?_⟩
      rw [hbl, hs]; exact br
    simp [validate, verifyCapellaToDeneb, h1, h2, h3, htrusted, h4]

/-- C50, Deneb and Electra. -/
theorem C50_deneb (H : Id → Id → Id) (net : Net) (t : Trusted) (cache source) (h : Header)
    (slot : UInt64) (blockRoots : Vector Id 8192) (fork : Fork)
    (hfork : fork = .deneb ∨ fork = .electra) (b : Block fork) (s : Summary)
    (ht : net.cancunTime ≤ h.timestamp) (hhash : b.blockHash = h.hash)
    (hslot : blockRoots.toList[slot.toNat % 8192]? = some (b.root H))
    (htrusted : (getSummary cache source slot.toNat).1 = some s)
    (hs : s.blockSummaryRoot = containerRoot H blockRoots.toList) :
    ∃ p, buildDenebProof H slot blockRoots b = some p ∧
      (validate H net t cache source h (.deneb p)).1 = .accept := by
  obtain ⟨el, er⟩ := exec_built H b 5 6444 (by rcases hfork with rfl | rfl <;> exact payload_depth b)
    (by omega) (by omega)
  obtain ⟨bl, br⟩ := roots_built H blockRoots slot.toNat 1 _ hslot
  obtain ⟨ep, he, hel⟩ := fixed_eq 12 _ el
  obtain ⟨bp, hb, hbl⟩ := fixed_eq 13 _ bl
  refine ⟨⟨bp, b.root H, ep, slot⟩, ?_, ?_⟩
  · simp only [buildDenebProof, slotsPerRoot, hb, he]; rfl
  · have h1 : net.cancun h.timestamp = true := by simpa [Net.cancun] using ht
    have h3 : verifyExecDeneb H h.hash ep.toList (b.root H) = true :=
      (verify_iff ..).mpr ⟨rfl, by rw [hel, ← hhash]; exact er⟩
    have h4 : verifySummaries H (some s) slot (b.root H) bp.toList = true := by
      refine (verify_iff ..).mpr ⟨by simp, ?_⟩
      rw [hbl, hs]; exact br
    simp [validate, verifyPostDeneb, h1, h3, htrusted, h4]

/-- The block roots that the builders use commit to the block hash in the sense of C32. -/
theorem C50_commits (H : Id → Id → Id) {fork : Fork} (b : Block fork) :
    CommitsHash H (payloadDepth fork) (b.root H) b.blockHash
      ⟨fun i => (b.blockLeaves H).getD i 0, fun i => (b.bodyLeaves H).getD i 0,
        fun i => b.payloadLeaves.getD i 0⟩ := by
  refine ⟨?_, ?_, ?_, ?_⟩
  · rw [Block.root, containerRoot, block_depth]; rfl
  · show (b.blockLeaves H).getD 4 0 = _
    have : (b.blockLeaves H).getD 4 0 = b.bodyRoot H := by simp [Block.blockLeaves]
    rw [this, Block.bodyRoot, containerRoot, body_depth]; rfl
  · show (b.bodyLeaves H).getD 9 0 = _
    have : (b.bodyLeaves H).getD 9 0 = b.payloadRoot H := by simp [Block.bodyLeaves]
    rw [this, Block.payloadRoot, containerRoot, payload_depth]; rfl
  · simp [Block.payloadLeaves]

theorem exists_replicate (n : Nat) (x : Id) : ∃ v : Vector Id n, v.toList = List.replicate n x :=
  ⟨Vector.replicate n x, by simp⟩

/-- A Deneb block in a batch of 8192 block roots that has it at slot 5 of the first Capella period. -/
example (H : Id → Id → Id) : ∃ (b : Block .deneb) (roots : Vector Id 8192) (s : Summary) (p : DenebProof),
    buildDenebProof H 6209541 roots b = some p ∧
    (validate H ⟨100, 1000, 2000⟩ ⟨[], []⟩ [s] (fun _ => none) ⟨200, 3000, 77⟩ (.deneb p)).1 =
      .accept := by
  have hb : ∃ b : Block .deneb, b.blockHash = 77 := ⟨⟨Vector.replicate 4 1, Vector.replicate 9 2,
    Vector.replicate 2 3, Vector.replicate 12 4, 77, Vector.replicate 4 5⟩, rfl⟩
  obtain ⟨b, hb⟩ := hb
  obtain ⟨roots, hr⟩ := exists_replicate 8192 (b.root H)
  have hs : ∃ s : Summary, s.blockSummaryRoot = containerRoot H roots.toList := ⟨⟨_, 0⟩, rfl⟩
  obtain ⟨s, hs⟩ := hs
  have hn : (6209541 : UInt64).toNat = 6209541 := by decide
  obtain ⟨p, h1, h2⟩ := C50_deneb H ⟨100, 1000, 2000⟩ ⟨[], []⟩
    [s] (fun _ => none) ⟨200, 3000, 77⟩ 6209541 roots .deneb
    (Or.inl rfl) b s (by decide) hb
    (by rw [hr, List.getElem?_replicate, hn, if_pos (by omega)])
    (by
      rw [hn, C35_cache_hit _ _ _ (by decide) (by simp [firstCapellaSlot])]
      simp [firstCapellaSlot]) hs
  exact ⟨b, roots, s, p, h1, h2⟩

end Verif.Props
