import Verif.Lemmas.Bytes
import Verif.Lemmas.HeaderValidator

/-! # C31, C34: pre-merge headers -/

namespace Verif.Props
open Verif.HeaderValidator Verif.Merkle

/-- The hash tree root of an epoch accumulator, a list of at most 8192 records: each record is a node of
its block hash and its total difficulty in little endian, and the length is mixed in. -/
def epochRoot (H : Id → Id → Id) (records : List Record) : Id :=
  H (listRoot H 13 (records.map fun r => H r.blockHash (leNode r.totalDifficulty.toNat)))
    (leNode records.length)

/-- The pairs hashed to compute that root. -/
def epochPairs (H : Id → Id → Id) (records : List Record) : List (Id × Id) :=
  (listRoot H 13 (records.map fun r => H r.blockHash (leNode r.totalDifficulty.toNat)),
    leNode records.length) ::
  (treePairs H 13 (fun i =>
    (records.map fun r => H r.blockHash (leNode r.totalDifficulty.toNat)).getD i 0) ++
  records.map fun r => (r.blockHash, leNode r.totalDifficulty.toNat))

/-- The node of a number is its 32 bytes, least significant first. -/
theorem C34_number_node (v : Nat) (h : v < 2 ^ 256) : fromLe (leNode v).bytes = v := by
  have e : (leNode v).bytes = toLe 32 v := by
    have h1 := toBe_fromBe (toLe 32 v)
    have h2 := fromBe_lt (toLe 32 v)
    rw [toLe_length] at h1 h2
    rw [Id.bytes, leNode, BitVec.toNat_ofNat, Nat.mod_eq_of_lt (Nat.lt_of_lt_of_le h2 (by decide)), h1]
  rw [e]
  exact fromLe_toLe_of_lt (Nat.lt_of_lt_of_le h (by decide))

example : fromLe (leNode 17179869184).bytes = 17179869184 := C34_number_node _ (by decide)
example : (leNode 258).bytes.take 3 = [2, 1, 0] := by decide +kernel

/-- C31: an accepted header is before the merge, and its hash is the one recorded for its number in the
trusted epoch, unless a pair hashed along the proof collides with a pair hashed for the epoch. -/
theorem C31_sound (H : Id → Id → Id) (net : Net) (t : Trusted) (cache source) (h : Header)
    (p : Vector Id 15) (records : List Record) (r : Record)
    (hacc : (validate H net t cache source h (.hashes p)).1 = .accept)
    (htrusted : t.epochs[h.number.toNat / 8192]? = some (epochRoot H records))
    (hr : records[h.number.toNat % 8192]? = some r) :
    h.number < net.parisBlock ∧ (h.hash = r.blockHash ∨
      CollisionBetween H (branchPairs H h.hash p.toList (2 * (2 * 8192 + h.number.toNat % 8192)))
        (epochPairs H records)) := by
  simp only [validate, verifyPreMerge] at hacc
  split at hacc
  · cases hacc
  · next hp =>
    refine ⟨?_, ?_⟩
    · simpa [Net.paris] using hp
    · rw [htrusted] at hacc
      simp only at hacc
      split at hacc
      · next hv =>
        obtain ⟨hl, hroot⟩ := (verify_iff ..).mp hv
        have hi : h.number.toNat % 8192 < 8192 := Nat.mod_lt _ (by omega)
        have hsp : slotsPerRoot = 8192 := rfl
        have hgidx : slotsPerRoot * 2 * 2 + h.number.toNat % slotsPerRoot * 2 =
            2 * (2 * 8192 + h.number.toNat % 8192) := by rw [hsp]; omega
        rw [hgidx] at hroot
        revert hroot hl
        generalize p.toList = pl
        generalize hgi : h.number.toNat % 8192 = i at *
        intro hl hroot
        match pl, hl with
        | d :: rest, hl =>
          have ei : 2 * (2 * 8192 + i) / 2 = 2 * 8192 + i := by omega
          have ei2 : (2 * 8192 + i) / 2 ^ 13 = 2 := by omega
          rw [root_cons, if_neg (by omega), ei] at hroot
          obtain ⟨b, s, rfl, hbl⟩ := eq_snoc_of_length (d := 13) (by simpa using hl)
          rw [root_append, hbl, ei2] at hroot
          rw [root_cons, if_neg (by omega), epochRoot] at hroot
          have hpairs : branchPairs H h.hash (d :: (b ++ [s])) (2 * (2 * 8192 + i)) =
              (h.hash, d) :: (branchPairs H (H h.hash d) b (2 * 8192 + i) ++
                [(merkleRootFromBranch H (H h.hash d) b (2 * 8192 + i), s)]) := by
            simp only [branchPairs]
            rw [if_neg (by omega), ei, branchPairs_last, hbl, ei2, if_neg (by omega)]
          rw [hpairs]
          by_cases hc : (merkleRootFromBranch H (H h.hash d) b (2 * 8192 + i), s) =
            (listRoot H 13 (records.map fun r => H r.blockHash (leNode r.totalDifficulty.toNat)),
              leNode records.length)
          · rw [Prod.mk.injEq] at hc
            rcases root_sound H _ 13 _ _ b hbl hc.1 with ⟨h1, _⟩ | hcol
            · have hm : (2 * 8192 + i) % 2 ^ 13 = i := by omega
              rw [hm] at h1
              have hg : (records.map fun r => H r.blockHash (leNode r.totalDifficulty.toNat)).getD i 0
                  = H r.blockHash (leNode r.totalDifficulty.toNat) := by
                rw [List.getD_eq_getElem?_getD, List.getElem?_map, hr]; rfl
              rw [hg] at h1
              by_cases hc2 : (h.hash, d) = (r.blockHash, leNode r.totalDifficulty.toNat)
              · exact Or.inl (Prod.mk.injEq .. ▸ hc2).1
              · refine Or.inr ⟨_, List.mem_cons_self .., _, ?_, hc2, h1⟩
                simp only [epochPairs, List.mem_cons, List.mem_append, List.mem_map]
                exact Or.inr (Or.inr ⟨r, List.mem_of_getElem? hr, rfl⟩)
            · refine Or.inr (hcol.mono ?_ ?_)
              · intro x hx; simp [hx]
              · intro x hx
                simp only [epochPairs, List.mem_cons, List.mem_append]
                exact Or.inr (Or.inl hx)
          · exact Or.inr ⟨_, by simp, _, List.mem_cons_self .., hc, hroot⟩
      · cases hacc

/-- C31: whatever the trusted epoch root is, no two headers with the same number and different hashes
are both accepted, unless pairs hashed along the two proofs collide. -/
theorem C31_unique (H : Id → Id → Id) (net : Net) (t : Trusted) (c₁ c₂ s₁ s₂) (h₁ h₂ : Header)
    (p₁ p₂ : Vector Id 15) (hn : h₁.number = h₂.number)
    (a₁ : (validate H net t c₁ s₁ h₁ (.hashes p₁)).1 = .accept)
    (a₂ : (validate H net t c₂ s₂ h₂ (.hashes p₂)).1 = .accept) :
    h₁.hash = h₂.hash ∨ CollisionBetween H
      (branchPairs H h₁.hash p₁.toList (2 * (2 * 8192 + h₁.number.toNat % 8192)))
      (branchPairs H h₂.hash p₂.toList (2 * (2 * 8192 + h₁.number.toNat % 8192))) := by
  simp only [validate, verifyPreMerge] at a₁ a₂
  rw [hn] at a₁
  split at a₂
  · cases a₂
  · next hp =>
    rw [if_neg hp] at a₁
    cases ht : t.epochs[h₂.number.toNat / slotsPerRoot]? with
    | none => rw [ht] at a₁; cases a₁
    | some root =>
      rw [ht] at a₁ a₂
      simp only at a₁ a₂
      split at a₁ <;> try cases a₁
      split at a₂ <;> try cases a₂
      next v₁ v₂ =>
        obtain ⟨l1, r1⟩ := (verify_iff ..).mp v₁
        obtain ⟨l2, r2⟩ := (verify_iff ..).mp v₂
        have hgidx : slotsPerRoot * 2 * 2 + h₂.number.toNat % slotsPerRoot * 2 =
            2 * (2 * 8192 + h₁.number.toNat % 8192) := by
          rw [hn]; show 8192 * 2 * 2 + h₂.number.toNat % 8192 * 2 = _; omega
        rw [hgidx] at r1 r2
        exact (root_binding H _ 15 _ _ _ _ l1 l2 (r1.trans r2.symm)).imp (·.1) id

/-- C34: for every epoch accumulator, complete or not, and every header recorded in it, the proof can be
built and the validator that trusts the root of that epoch accepts it. -/
theorem C34_built_proof_accepted (H : Id → Id → Id) (net : Net) (t : Trusted) (cache source)
    (h : Header) (records : List Record) (r : Record) (hlen : records.length ≤ 8192)
    (hr : records[h.number.toNat % 8192]? = some r) (hh : r.blockHash = h.hash)
    (hnet : h.number < net.parisBlock)
    (htrusted : t.epochs[h.number.toNat / 8192]? = some (epochRoot H records)) :
    ∃ p, constructProof H h records = .ok p ∧
      (validate H net t cache source h (.hashes p)).1 = .accept := by
  have hi : h.number.toNat % 8192 < 8192 := Nat.mod_lt _ (by omega)
  obtain ⟨tree, hc, rep⟩ := create_rep H 13 (records.map (recordLeaf H)) (by simpa using hlen)
  have hp := rep.proof (h.number.toNat % 8192)
  have hleaf : (records.map (recordLeaf H)).getD (h.number.toNat % 8192) 0 = recordLeaf H r := by
    rw [List.getD_eq_getElem?_getD, List.getElem?_map, hr]; rfl
  have hmod : h.number.toNat % 8192 % 2 ^ 13 = h.number.toNat % 8192 := by omega
  simp only [hmod, hleaf] at hp
  have hbl : (branchOf H (h.number.toNat % 8192) 13
      fun i => (records.map (recordLeaf H)).getD i 0).length = 13 := branchOf_length ..
  generalize hb : branchOf H (h.number.toNat % 8192) 13
      (fun i => (records.map (recordLeaf H)).getD i 0) = b at hp hbl
  have hroot : merkleRootFromBranch H (recordLeaf H r) b (h.number.toNat % 8192) =
      listRoot H 13 (records.map (recordLeaf H)) := by
    have := root_branchOf H (h.number.toNat % 8192) 13
      (fun i => (records.map (recordLeaf H)).getD i 0)
    rw [hmod, hb, hleaf] at this
    exact this
  have hpl : (leNode r.totalDifficulty.toNat :: b ++ [leNode records.length]).length = 15 := by
    simp [hbl]
  refine ⟨Vector.mk (leNode r.totalDifficulty.toNat :: b ++ [leNode records.length]).toArray
    (by simpa using hpl), ?_, ?_⟩
  · unfold constructProof
    simp only [slotsPerRoot, hr, hh, hc, hp, ne_eq, not_true_eq_false, if_false]
    rw [dif_pos hpl]
  · simp only [validate, verifyPreMerge]
    rw [if_neg (by simpa [Net.paris] using hnet)]
    simp only [slotsPerRoot, htrusted]
    rw [if_pos]
    refine (verify_iff ..).mpr ⟨by simpa using hpl, ?_⟩
    show merkleRootFromBranch H h.hash (leNode r.totalDifficulty.toNat :: (b ++ [leNode records.length])) _ = _
    rw [root_cons, if_neg (by omega), root_append, hbl, root_cons, if_neg (by omega), epochRoot]
    have e1 : H h.hash (leNode r.totalDifficulty.toNat) = recordLeaf H r := by
      rw [recordLeaf, hh]
    have e2 : merkleRootFromBranch H (recordLeaf H r) b
        ((8192 * 2 * 2 + h.number.toNat % 8192 * 2) / 2) =
        merkleRootFromBranch H (recordLeaf H r) b (h.number.toNat % 8192) := by
      apply root_mod
      rw [hbl]; omega
    rw [e1, e2, hroot]
    rfl

/-- C34: a header that is not the recorded one gets no proof. -/
theorem C34_mismatch (H : Id → Id → Id) (h : Header) (records : List Record) (r : Record)
    (hr : records[h.number.toNat % 8192]? = some r) (hh : r.blockHash ≠ h.hash) :
    constructProof H h records = .error .hashMismatch := by
  simp [constructProof, slotsPerRoot, hr, hh]

/-- The first block of mainnet time in a one-record epoch: all hypotheses of C31 and C34 hold. -/
example : ∃ p, constructProof (fun a b => a + 2 * b) ⟨0, 5, 77⟩ [⟨77, 9⟩] = .ok p ∧
    (validate (fun a b => a + 2 * b) ⟨100, 1000, 2000⟩
      ⟨[epochRoot (fun a b => a + 2 * b) [⟨77, 9⟩]], []⟩ [] (fun _ => none) ⟨0, 5, 77⟩ (.hashes p)).1
      = .accept :=
  C34_built_proof_accepted _ _ _ _ _ _ _ ⟨77, 9⟩ (by decide) rfl rfl (by decide) rfl

end Verif.Props
