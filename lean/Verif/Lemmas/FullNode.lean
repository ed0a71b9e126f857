import Verif.Props.FullNodeSpec
import Verif.Lemmas.ArchiveFlow
import Verif.Props.StateNode

/-! # Lemmas for C99 -/

namespace Verif.Props.FullNodes
open Verif.FullNode Verif.Merkle Verif.HistoryValue
open Verif.ContentKey (Legacy)
open Verif.HeaderValidator

/-! ## A proof for blocks of one form against a block of another -/

/-- A tree seen one level above its leaves. -/
theorem treeRoot_up (H : Id → Id → Id) : ∀ (d : Nat) (f : Nat → Id),
    treeRoot H (d + 1) f = treeRoot H d fun i => H (f (2 * i)) (f (2 * i + 1))
  | 0, f => rfl
  | d + 1, f => by
    rw [treeRoot, treeRoot_up H d f, treeRoot_up H d]
    rw [treeRoot]
    congr 2
    funext i
    rw [Nat.mul_add, show 2 * 2 ^ d = 2 ^ (d + 1) by rw [Nat.pow_succ]; omega]
    rfl

theorem treePairs_up (H : Id → Id → Id) : ∀ (d : Nat) (f : Nat → Id),
    (treePairs H d fun i => H (f (2 * i)) (f (2 * i + 1))) ⊆ treePairs H (d + 1) f
  | 0, f => by simp [treePairs]
  | d + 1, f => by
    have he : (fun i => (fun i => H (f (2 * i)) (f (2 * i + 1))) (2 ^ d + i)) =
        fun i => H ((fun j => f (2 ^ (d + 1) + j)) (2 * i)) ((fun j => f (2 ^ (d + 1) + j)) (2 * i + 1)) := by
      funext i
      simp only
      rw [Nat.mul_add, show 2 * 2 ^ d = 2 ^ (d + 1) by rw [Nat.pow_succ]; omega]
      rfl
    intro q hq
    rw [treePairs, he] at hq
    rw [treePairs]
    simp only [List.mem_cons, List.mem_append] at hq ⊢
    rcases hq with hq | hq | hq
    · left
      rw [hq, treeRoot_up H d f, treeRoot_up H d fun j => f (2 ^ (d + 1) + j)]
    · exact .inr (.inl (treePairs_up H d f hq))
    · exact .inr (.inr (treePairs_up H d _ hq))

/-- The root is the hash of the last pair. -/
theorem root_last (H : Id → Id → Id) (leaf : Id) (br : List Id) (idx : Nat) (h : br ≠ []) :
    ∃ q ∈ branchPairs H leaf br idx, H q.1 q.2 = merkleRootFromBranch H leaf br idx := by
  obtain ⟨n, hn⟩ : ∃ n, br.length = n + 1 := ⟨br.length - 1, by have := List.length_pos_iff.mpr h; omega⟩
  obtain ⟨b, s, rfl, hb⟩ := eq_snoc_of_length hn
  refine ⟨_, by rw [branchPairs_last]; exact List.mem_append_right _ (List.mem_singleton.mpr rfl), ?_⟩
  rw [root_append, root_cons]
  split <;> rfl

/-- The form that a proof with this many levels in the payload is for. -/
def formFor (depth : Nat) : Form := if depth = 4 then .bellatrix else .deneb

theorem exec_some (H : Id → Id → Id) (depth : Nat) (hd : depth = 4 ∨ depth = 5) (idx : Nat) (hash root g : Id) (c : Contents)
    (form : Form) (hf : form ≠ .empty) (proof : List Id) (hl : proof.length = depth + 7) (hidx : idx = 201 * 2 ^ depth + 12)
    (hv : verifyMerkleProof H hash proof proof.length idx root = true) (hg : Commits H root g c form) :
    CollisionBetween H (branchPairs H hash proof idx) (pairs H c form) ∨ (form = formFor depth ∧ hash = g) ∨
    (form ≠ formFor depth ∧ Freak H hash (branchPairs H hash proof idx) c form) := by
  by_cases hform : form = formFor depth
  · have hc : CommitsHash H depth root g c ∧ pairs H c form = c.pairs H depth := by
      subst hform
      rcases hd with rfl | rfl
      · exact ⟨hg, rfl⟩
      · exact ⟨hg.1, rfl⟩
    rcases exec_sound H depth (by omega) idx hash root g c proof hl hidx hv hc.1 with h | h
    · exact .inr (.inl ⟨hform, h⟩)
    · rw [← hc.2] at h; exact .inl h
  obtain ⟨block, body, payload⟩ := c
  obtain ⟨_, hroot⟩ := (verify_iff ..).mp hv
  obtain ⟨a, r, rfl, ha, hr⟩ := split_branch proof depth 7 (by omega)
  obtain ⟨b, c, rfl, hb, hc⟩ := split_branch r 4 3 hr
  have hp : 16 ≤ 2 ^ depth := by rcases hd with rfl | rfl <;> decide
  have hdiv : idx / 2 ^ depth = 201 := by
    rw [hidx, Nat.mul_comm, Nat.mul_add_div (by omega), Nat.div_eq_of_lt (by omega)]
  have hne : a ≠ [] := by intro h; rw [h] at ha; simp at ha; omega
  rw [root_append, root_append, ha, hb, hdiv] at hroot
  rw [branchPairs_append, branchPairs_append, ha, hb, hdiv]
  have hblock : root = treeRoot H 3 block := by
    cases form with
    | phase0 => exact hg.1
    | altair => exact hg.1
    | empty => exact absurd rfl hf
    | bellatrix => exact hg.1
    | deneb => exact hg.1.1
  rw [hblock] at hroot
  have hin : treePairs H 3 block ⊆ pairs H ⟨block, body, payload⟩ form := by
    intro x hx
    cases form <;> simp [pairs, Contents.pairs, hx]
  rcases (root_sound H _ 3 block _ c hc hroot).symm with h | ⟨h1, _⟩
  · exact .inl (h.mono (by intro x hx; simp [hx]) hin)
  have h1 : merkleRootFromBranch H (merkleRootFromBranch H hash a idx) b 201 = block 4 := h1
  cases form with
  | phase0 =>
    obtain ⟨_, h2, h3⟩ := hg
    simp only at h2 h3
    obtain ⟨s, b, rfl⟩ : ∃ s b', b = s :: b' := by
      cases b with
      | nil => cases hb
      | cons s b => exact ⟨s, b, rfl⟩
    rw [h2, root_cons, if_pos (by decide)] at h1
    rcases root_sound H _ 3 body _ b (by simpa using hb) h1 with ⟨h4, _⟩ | h
    · have h4 : H s (merkleRootFromBranch H hash a idx) = body 4 := h4
      rw [h3] at h4
      by_cases hpair : (s, merkleRootFromBranch H hash a idx) = (payload 0, payload 1)
      · rw [Prod.mk.injEq] at hpair
        obtain ⟨q, hq, h5⟩ := root_last H hash a idx hne
        exact .inr (.inr ⟨hform, q, by simp [hq], h5.trans hpair.2⟩)
      · refine .inl ⟨(s, merkleRootFromBranch H hash a idx), ?_, (payload 0, payload 1), ?_, hpair, h4⟩
        · simp [branchPairs]
        · simp [pairs, treePairs, treeRoot]
    · refine .inl (h.mono ?_ ?_)
      · intro x hx; simp [branchPairs, hx]
      · intro x hx; simp [pairs, hx]
  | altair =>
    obtain ⟨_, h2, h3⟩ := hg
    simp only at h2 h3
    rw [h2] at h1
    rcases root_sound H _ 4 body _ b hb h1 with ⟨h4, _⟩ | h
    · have h4 : merkleRootFromBranch H hash a idx = body 9 := h4
      obtain ⟨q, hq, h5⟩ := root_last H hash a idx hne
      exact .inr (.inr ⟨hform, q, by simp [hq], (h5.trans h4).trans h3⟩)
    · exact .inl (h.mono (by intro x hx; simp [hx]) (by intro x hx; simp [pairs, hx]))
  | empty => exact absurd rfl hf
  | bellatrix =>
    have hd5 : depth = 5 := by
      rcases hd with rfl | rfl
      · exact absurd rfl hform
      · rfl
    subst hd5
    obtain ⟨_, h2, h3, h4⟩ := hg
    simp only at h2 h3 h4
    rw [h2] at h1
    rcases root_sound H _ 4 body _ b hb h1 with ⟨h5, _⟩ | h
    · have h5 : merkleRootFromBranch H hash a idx = body 9 := h5
      obtain ⟨s, a, rfl⟩ : ∃ s a', a = s :: a' := by
        cases a with
        | nil => cases ha
        | cons s a => exact ⟨s, a, rfl⟩
      rw [h3, root_cons, hidx, if_neg (by decide)] at h5
      rcases root_sound H _ 4 payload _ a (by simpa using ha) h5 with ⟨h6, _⟩ | h
      · have h6 : H hash s = payload 6 := h6
        refine .inr (.inr ⟨hform, (hash, s), ?_, h6⟩)
        rw [branchPairs, hidx, if_neg (by decide)]
        simp
      · refine .inl (h.mono ?_ ?_)
        · intro x hx
          rw [branchPairs, hidx, if_neg (by decide)]
          simp [hx]
        · intro x hx; simp [pairs, Contents.pairs, hx]
    · refine .inl (h.mono (by intro x hx; simp [hx]) (by intro x hx; simp [pairs, Contents.pairs, hx]))
  | deneb =>
    have hd4 : depth = 4 := by
      rcases hd with rfl | rfl
      · rfl
      · exact absurd rfl hform
    subst hd4
    obtain ⟨⟨_, h2, h3, h4⟩, z1, z2⟩ := hg
    simp only at h2 h3 h4 z1 z2
    rw [h2] at h1
    rcases root_sound H _ 4 body _ b hb h1 with ⟨h5, _⟩ | h
    · have h5 : merkleRootFromBranch H hash a idx = body 9 := h5
      rw [h3, treeRoot_up, hidx] at h5
      rw [hidx]
      rcases root_sound H _ 4 _ _ a ha h5 with ⟨h6, _⟩ | h
      · have h6 : hash = H (payload 24) (payload 25) := h6
        rw [z1, z2] at h6
        exact .inr (.inr ⟨hform, h6⟩)
      · refine .inl (h.mono (by intro x hx; simp [hx]) ?_)
        intro x hx
        have := treePairs_up H 4 payload hx
        simp only [pairs, Contents.pairs, List.mem_append]
        exact .inr this
    · exact .inl (h.mono (by intro x hx; simp [hx]) (by intro x hx; simp [pairs, Contents.pairs, hx]))

theorem exec_any (H : Id → Id → Id) (depth : Nat) (hd : depth = 4 ∨ depth = 5) (idx : Nat) (hash root g : Id) (c : Contents)
    (form : Form) (proof : List Id) (hl : proof.length = depth + 7) (hidx : idx = 201 * 2 ^ depth + 12)
    (hv : verifyMerkleProof H hash proof proof.length idx root = true) (hg : Commits H root g c form) :
    CollisionBetween H (branchPairs H hash proof idx) (pairs H c form) ∨ (form = formFor depth ∧ hash = g) ∨
    (form ≠ formFor depth ∧ Freak H hash (branchPairs H hash proof idx) c form) := by
  by_cases hf : form = .empty
  · subst hf
    have hne : Form.empty ≠ formFor depth := by unfold formFor; split <;> nofun
    rcases exec_some H depth hd idx hash root 0 c .bellatrix nofun proof hl hidx hv hg with h | ⟨_, h⟩ | ⟨_, h⟩
    · exact .inl h
    · exact .inr (.inr ⟨hne, .inl h⟩)
    · exact .inr (.inr ⟨hne, .inr h⟩)
  · exact exec_some H depth hd idx hash root g c form hf proof hl hidx hv hg

/-! ## Accepted headers -/

variable {Hd Tx Rc Wd : Type} {L : Ledger Hd} {n : HistoryNode.Node Hd Tx Rc Wd} {truth : List BeaconValue.Summary}

theorem same_or_broken (hf : n.lib.Faithful) {h : Hd} {p : HeaderProof} (hhas : L.Has n (n.lib.view h).number p)
    (he : (n.lib.hdr h).hash = n.lib.keccak (n.lib.header.enc (L.named (n.lib.view h).number p))) : OnChain L n h p := by
  by_cases hb : n.lib.header.enc h = n.lib.header.enc (L.named (n.lib.view h).number p)
  · exact .inl ⟨HistoryValidator.enc_inj hf.header hb, hhas⟩
  · exact .inr (.inl ⟨hb, he⟩)

/-- What the block of the slot says about the header, once the block root in the proof is that of the slot. -/
theorem exec_on_chain (hf : n.lib.Faithful) (hd : Describes L n truth) {h : Hd} {p : HeaderProof} {slot depth idx : Nat} {root : Id}
    {proof : List Id} (hdep : depth = 4 ∨ depth = 5) (hl : proof.length = depth + 7) (hidx : idx = 201 * 2 ^ depth + 12)
    (hroot : root = L.blockRoots (slot / 8192) (slot % 8192))
    (hv : verifyMerkleProof n.H (n.lib.hdr h).hash proof proof.length idx root = true)
    (hslot : slotOf p = some slot) (hnamed : L.named (n.lib.view h).number p = L.header slot)
    (hhas : L.Has n (n.lib.view h).number p ↔ L.form slot = formFor depth)
    (hin : branchPairs n.H (n.lib.hdr h).hash proof idx ⊆ hashed n.H (n.lib.hdr h).hash (n.lib.view h).number p)
    (hin' : pairs n.H (L.contents slot) (L.form slot) ⊆ L.hashed n.H (n.lib.view h).number p) : OnChain L n h p := by
  have hc := hd.blocks slot
  rw [← hroot] at hc
  rcases exec_any n.H depth hdep idx _ _ _ _ _ proof hl hidx hv hc with h1 | ⟨h1, h2⟩ | ⟨h1, h2⟩
  · exact .inr (.inr (.inl (h1.mono hin hin')))
  · refine same_or_broken hf (hhas.mpr h1) ?_
    rw [hnamed]; exact h2
  · refine .inr (.inr (.inr ⟨slot, hslot, fun h => h1 (hhas.mp h), ?_⟩))
    revert h2
    cases L.form slot with
    | phase0 => rintro ⟨q, hq, h⟩; exact ⟨q, hin hq, h⟩
    | altair => rintro ⟨q, hq, h⟩; exact ⟨q, hin hq, h⟩
    | empty =>
      rintro (h | ⟨q, hq, h⟩)
      · exact .inl h
      · exact .inr ⟨q, hin hq, h⟩
    | bellatrix => rintro ⟨q, hq, h⟩; exact ⟨q, hin hq, h⟩
    | deneb => exact id

theorem summary_on_chain (hd : Describes L n truth) {cache : List Summary} {source : Nat → Option (List Summary)}
    (hc : cache <+: truth.map historySummary) (hs : ∀ e l, source e = some l → l <+: truth.map historySummary) {slot : UInt64}
    {root : Id} {proof : List Id}
    (hv : verifySummaries n.H (getSummary cache source slot.toNat).1 slot root proof = true) :
    root = L.blockRoots (slot.toNat / 8192) (slot.toNat % 8192) ∨
      CollisionBetween n.H (branchPairs n.H root proof (8192 + slot.toNat % 8192))
        (treePairs n.H 13 (L.blockRoots (slot.toNat / 8192))) := by
  obtain ⟨h1, s, h2, h3⟩ := summaries_sound n.H _ cache source slot root proof hc hs hv
  rw [List.getElem?_map, Option.map_eq_some_iff] at h2
  obtain ⟨x, hx, rfl⟩ := h2
  have hperiod : 758 + (slot.toNat - firstCapellaSlot) / 8192 = slot.toNat / 8192 := by
    have : firstCapellaSlot = 6209536 := rfl
    omega
  have h4 := hd.summaries _ x hx
  rw [hperiod] at h4
  exact h3 _ h4

theorem accepted_on_chain (hf : n.lib.Faithful) (hd : Describes L n truth) {cache : List Summary}
    {source : Nat → Option (List Summary)} (hc : cache <+: truth.map historySummary)
    (hs : ∀ e l, source e = some l → l <+: truth.map historySummary) {h : Hd} {p : HeaderProof}
    (hacc : (validate n.H n.net n.trusted cache source (n.lib.hdr h) p).1 = .accept) : OnChain L n h p := by
  cases p with
  | hashes p =>
    have hacc' := hacc
    simp only [validate, verifyPreMerge] at hacc
    split at hacc
    · cases hacc
    · next hp =>
      split at hacc
      · cases hacc
      · next root hroot =>
        have hlt : (n.lib.hdr h).number < n.net.parisBlock := by simpa [Net.paris] using hp
        obtain ⟨r, hr, hh⟩ := hd.records _ hlt
        have htr : n.trusted.epochs[(n.lib.hdr h).number.toNat / 8192]? = some (epochRoot n.H (L.records ((n.lib.hdr h).number.toNat / 8192))) := by
          rw [← hd.epochs _ _ hroot]; exact hroot
        rcases (C31_sound n.H n.net n.trusted cache source _ p _ r hacc' htr hr).2 with h1 | h1
        · exact same_or_broken hf hlt (h1.trans hh)
        · exact .inr (.inr (.inl h1))
  | roots p =>
    simp only [validate, verifyMergeToCapella] at hacc
    split at hacc <;> try cases hacc
    split at hacc <;> try cases hacc
    split at hacc <;> try cases hacc
    next he =>
    split at hacc <;> try cases hacc
    next hv =>
    have he' : verifyExecBellatrix n.H (n.lib.hdr h).hash p.executionBlockProof.toList p.beaconBlockRoot = true := by simpa using he
    unfold verifyHistoricalRoots at hv
    split at hv
    · cases hv
    next root hroot =>
    simp only [Option.some.injEq] at hv
    have hroot := hd.roots _ _ hroot
    obtain ⟨hl, hb⟩ := (verify_iff ..).mp hv
    obtain ⟨b, s, hbs, hbl⟩ := eq_snoc_of_length (d := 13) hl
    have hsp : slotsPerRoot = 8192 := rfl
    have e13 : (2 * slotsPerRoot + p.slot.toNat % slotsPerRoot) / 2 ^ 13 = 2 := by rw [hsp]; omega
    rw [hbs, root_append, hbl, e13, root_cons, if_neg (by omega), hroot] at hb
    have hpairs : branchPairs n.H p.beaconBlockRoot p.beaconBlockProof.toList (2 * 8192 + p.slot.toNat % 8192) =
        branchPairs n.H p.beaconBlockRoot b (2 * slotsPerRoot + p.slot.toNat % slotsPerRoot) ++
        [(merkleRootFromBranch n.H p.beaconBlockRoot b (2 * slotsPerRoot + p.slot.toNat % slotsPerRoot), s)] := by
      show branchPairs n.H p.beaconBlockRoot p.beaconBlockProof.toList (2 * slotsPerRoot + p.slot.toNat % slotsPerRoot) = _
      rw [hbs, branchPairs_last, hbl, e13, if_neg (by omega)]
    by_cases hcase : (merkleRootFromBranch n.H p.beaconBlockRoot b (2 * slotsPerRoot + p.slot.toNat % slotsPerRoot), s) =
        (treeRoot n.H 13 (L.blockRoots (p.slot.toNat / 8192)), L.stateRoots (p.slot.toNat / 8192))
    · rw [Prod.mk.injEq] at hcase
      rcases root_sound n.H _ 13 (L.blockRoots (p.slot.toNat / 8192)) _ b hbl hcase.1 with ⟨h1, _⟩ | hcol
      · have hm2 : (2 * slotsPerRoot + p.slot.toNat % slotsPerRoot) % 2 ^ 13 = p.slot.toNat % 8192 := by rw [hsp]; omega
        rw [hm2] at h1
        refine exec_on_chain hf hd (depth := 4) (.inl rfl) (by simp) rfl h1 he' rfl rfl (by rfl) ?_ ?_
        · intro x hx; exact List.mem_append_left _ hx
        · intro x hx; exact List.mem_append_left _ hx
      · refine .inr (.inr (.inl (hcol.mono ?_ ?_)))
        · intro x hx
          simp only [hashed, hpairs, List.mem_append]
          exact .inr (.inl hx)
        · intro x hx
          simp only [Ledger.hashed, List.mem_append, List.mem_cons]
          exact .inr (.inr hx)
    · refine .inr (.inr (.inl ⟨_, ?_, (treeRoot n.H 13 (L.blockRoots (p.slot.toNat / 8192)), L.stateRoots (p.slot.toNat / 8192)), ?_, hcase, hb⟩))
      · simp only [hashed, hpairs, List.mem_append, List.mem_singleton]; exact .inr (.inr trivial)
      · simp only [Ledger.hashed, List.mem_append, List.mem_cons]; exact .inr (.inl trivial)
  | capella p =>
    simp only [validate, verifyCapellaToDeneb] at hacc
    split at hacc <;> try cases hacc
    split at hacc <;> try cases hacc
    split at hacc <;> try cases hacc
    next he =>
    simp only at hacc
    split at hacc <;> try cases hacc
    next hv =>
    have he' : verifyExecBellatrix n.H (n.lib.hdr h).hash p.executionBlockProof.toList p.beaconBlockRoot = true := by simpa using he
    rcases summary_on_chain hd hc hs hv with h1 | hcol
    · refine exec_on_chain hf hd (depth := 4) (.inl rfl) (by simp) rfl h1 he' rfl rfl (by rfl) ?_ ?_
      · intro x hx; exact List.mem_append_left _ hx
      · intro x hx; exact List.mem_append_left _ hx
    · refine .inr (.inr (.inl (hcol.mono ?_ ?_)))
      · intro x hx; exact List.mem_append_right _ hx
      · intro x hx; exact List.mem_append_right _ hx
  | deneb p =>
    simp only [validate, verifyPostDeneb] at hacc
    split at hacc <;> try cases hacc
    split at hacc <;> try cases hacc
    next he =>
    simp only at hacc
    split at hacc <;> try cases hacc
    next hv =>
    have he' : verifyExecDeneb n.H (n.lib.hdr h).hash p.executionBlockProof.toList p.beaconBlockRoot = true := by simpa using he
    rcases summary_on_chain hd hc hs hv with h1 | hcol
    · refine exec_on_chain hf hd (depth := 5) (.inr rfl) (by simp) rfl h1 he' rfl rfl (by rfl) ?_ ?_
      · intro x hx; exact List.mem_append_left _ hx
      · intro x hx; exact List.mem_append_left _ hx
    · refine .inr (.inr (.inl (hcol.mono ?_ ?_)))
      · intro x hx; exact List.mem_append_right _ hx
      · intro x hx; exact List.mem_append_right _ hx

/-! ## The networks of the node are nodes of those networks -/

section Networks
variable {n : Node Hd Tx Rc Wd} {given : Option Id} {tie : Nat}

/-- The events of the history network, with the summaries that the beacon network had at each of them. -/
def lived (n : Node Hd Tx Rc Wd) : BeaconNode.State → List Ev → List HistoryNode.Ev
  | _, [] => []
  | b, .beacon e :: es =>
    match BeaconNode.step n.light b e with
    | some b => lived n b es
    | none => []
  | b, .history e :: es => atMoment n b e :: lived n b es
  | b, .state _ :: es => lived n b es

theorem run_append (a b : List Ev) (s : FullNode.State) : run n s (a ++ b) = (run n s a).bind fun s => run n s b := by
  induction a generalizing s with
  | nil => rfl
  | cons e a ih =>
    simp only [List.cons_append, run]
    split
    · exact ih _
    · rfl

theorem run_parts (es : List Ev) {s s' : FullNode.State} (h : run n s es = some s') :
    BeaconNode.run n.light s.beacon (beaconEvents es) = some s'.beacon ∧
    HistoryNode.run n.history s.history (lived n s.beacon es) = .ok s'.history ∧
    StateNode.run n.state s.state (stateEvents es) = .ok s'.state := by
  induction es generalizing s with
  | nil => cases h; exact ⟨rfl, rfl, rfl⟩
  | cons e es ih =>
    simp only [run] at h
    split at h
    · next t ht =>
      obtain ⟨h1, h2, h3⟩ := ih h
      cases e with
      | beacon e =>
        simp only [step, Option.map_eq_some_iff] at ht
        obtain ⟨b, hb, rfl⟩ := ht
        refine ⟨?_, ?_, h3⟩
        · simp only [beaconEvents, List.filterMap_cons, BeaconNode.run, hb]; exact h1
        · simp only [lived, hb]; exact h2
      | history e =>
        simp only [step] at ht
        split at ht
        · next x hx =>
          cases ht
          refine ⟨h1, ?_, h3⟩
          simp only [lived, HistoryNode.run, hx]; exact h2
        · cases ht
      | state e =>
        simp only [step] at ht
        split at ht
        · next x hx =>
          cases ht
          refine ⟨h1, h2, ?_⟩
          simp only [stateEvents, List.filterMap_cons, StateNode.run, hx]; exact h3
        · cases ht
    · cases h

/-- The other way around. -/
theorem run_history (hs : List HistoryNode.Ev) {s : FullNode.State} {h' : HistoryNode.State}
    (h : HistoryNode.run n.history s.history (hs.map (atMoment n s.beacon)) = .ok h') :
    run n s (hs.map .history) = some { s with history := h' } := by
  induction hs generalizing s with
  | nil => cases h; rfl
  | cons e hs ih =>
    simp only [List.map_cons, HistoryNode.run] at h
    simp only [List.map_cons, run, step]
    split at h
    · next x hx =>
      rw [hx]
      exact ih (s := { s with history := x }) h
    · cases h

theorem run_beacon (bs : List BeaconNode.Ev) {s : FullNode.State} {b' : BeaconNode.State}
    (h : BeaconNode.run n.light s.beacon bs = some b') : run n s (bs.map .beacon) = some { s with beacon := b' } := by
  induction bs generalizing s with
  | nil => cases h; rfl
  | cons e bs ih =>
    simp only [BeaconNode.run] at h
    simp only [List.map_cons, run, step]
    split at h
    · next x hx =>
      rw [hx]
      exact ih (s := { s with beacon := x }) h
    · cases h

theorem run_state (ts : List StateNode.Ev) {s : FullNode.State} {t' : StateNode.State}
    (h : StateNode.run n.state s.state ts = .ok t') : run n s (ts.map .state) = some { s with state := t' } := by
  induction ts generalizing s with
  | nil => cases h; rfl
  | cons e ts ih =>
    simp only [StateNode.run] at h
    simp only [List.map_cons, run, step]
    split at h
    · next x hx =>
      rw [hx]
      exact ih (s := { s with state := x }) h
    · cases h

theorem lived_append (a b : List Ev) {s s' : FullNode.State} (h : run n s a = some s') :
    lived n s.beacon (a ++ b) = lived n s.beacon a ++ lived n s'.beacon b := by
  induction a generalizing s with
  | nil => cases h; rfl
  | cons e a ih =>
    simp only [run] at h
    split at h
    · next t ht =>
      have := ih h
      cases e with
      | beacon e =>
        simp only [step, Option.map_eq_some_iff] at ht
        obtain ⟨b, hb, rfl⟩ := ht
        simp only [List.cons_append, lived, hb]; exact this
      | history e =>
        simp only [step] at ht
        split at ht
        · cases ht; simp only [List.cons_append, lived, List.cons_append]; rw [← this]
        · cases ht
      | state e =>
        simp only [step] at ht
        split at ht
        · cases ht; simp only [List.cons_append, lived]; exact this
        · cases ht
    · cases h

theorem received_atMoment (b : BeaconNode.State) (e : HistoryNode.Ev) :
    HistoryNodes.received [atMoment n b e] = HistoryNodes.received [e] := by cases e <;> rfl
theorem operated_atMoment (b : BeaconNode.State) (e : HistoryNode.Ev) :
    HistoryNodes.operated [atMoment n b e] = HistoryNodes.operated [e] := by cases e <;> rfl
theorem asked_atMoment (b : BeaconNode.State) (e : HistoryNode.Ev) :
    HistoryNodes.asked [atMoment n b e] = HistoryNodes.asked [e] := by cases e <;> rfl

/-- Nothing else differs. -/
theorem lived_same (es : List Ev) {s s' : FullNode.State} (h : run n s es = some s') :
    HistoryNodes.received (lived n s.beacon es) = HistoryNodes.received (historyEvents es) ∧
    HistoryNodes.operated (lived n s.beacon es) = HistoryNodes.operated (historyEvents es) ∧
    HistoryNodes.asked (lived n s.beacon es) = HistoryNodes.asked (historyEvents es) := by
  induction es generalizing s with
  | nil => exact ⟨rfl, rfl, rfl⟩
  | cons e es ih =>
    simp only [run] at h
    split at h
    · next t ht =>
      obtain ⟨h1, h2, h3⟩ := ih h
      cases e with
      | beacon e =>
        simp only [step, Option.map_eq_some_iff] at ht
        obtain ⟨b, hb, rfl⟩ := ht
        simp only [lived, hb]; exact ⟨h1, h2, h3⟩
      | history e =>
        simp only [step] at ht
        split at ht
        · cases ht
          simp only [lived]
          have hc : historyEvents (.history e :: es) = [e] ++ historyEvents es := rfl
          rw [hc, show ∀ l, atMoment n s.beacon e :: l = [atMoment n s.beacon e] ++ l from fun _ => rfl,
            HistoryNodes.received_append, HistoryNodes.operated_append, HistoryNodes.asked_append, HistoryNodes.received_append,
            HistoryNodes.operated_append, HistoryNodes.asked_append, received_atMoment, operated_atMoment, asked_atMoment]
          exact ⟨by rw [h1], by rw [h2], by rw [h3]⟩
        · cases ht
      | state e =>
        simp only [step] at ht
        split at ht
        · cases ht; simp only [lived]; exact ⟨h1, h2, h3⟩
        · cases ht
    · cases h

theorem lived_keys (es : List Ev) {s s' : FullNode.State} (h : run n s es = some s') :
    HistoryNodes.keys (lived n s.beacon es) = HistoryNodes.keys (historyEvents es) := by
  obtain ⟨h1, h2, h3⟩ := lived_same es h
  unfold HistoryNodes.keys
  rw [h1, h2, h3]

theorem lived_operator (es : List Ev) {s s' : FullNode.State} (h : run n s es = some s')
    (ho : HistoryNodes.HonestOperator n.history (historyEvents es)) :
    HistoryNodes.HonestOperator n.history (lived n s.beacon es) := by
  unfold HistoryNodes.HonestOperator at ho ⊢
  rw [(lived_same es h).2.1]
  exact ho

/-- The summaries that the history network was told are those that the beacon network had at some time. -/
theorem lived_sources (es : List Ev) {s s' : FullNode.State} (h : run n s es = some s') :
    ∀ f ∈ HistoryNodes.sources (lived n s.beacon es), ∃ pre post b, beaconEvents es = pre ++ post ∧
      BeaconNode.run n.light s.beacon pre = some b ∧ f = BeaconNode.summariesFor n.light b := by
  induction es generalizing s with
  | nil => intro f hf; cases hf
  | cons e es ih =>
    simp only [run] at h
    split at h
    · next t ht =>
      have h1 := ih h
      cases e with
      | beacon e =>
        simp only [step, Option.map_eq_some_iff] at ht
        obtain ⟨b, hb, rfl⟩ := ht
        simp only [lived, hb]
        intro f hf
        obtain ⟨pre, post, b', h2, h3, h4⟩ := h1 f hf
        refine ⟨e :: pre, post, b', ?_, ?_, h4⟩
        · simp only [beaconEvents, List.filterMap_cons, List.cons_append, List.cons.injEq, true_and]; exact h2
        · simp only [BeaconNode.run, hb]; exact h3
      | history e =>
        simp only [step] at ht
        split at ht
        · cases ht
          simp only [lived]
          rw [show ∀ l, atMoment n s.beacon e :: l = [atMoment n s.beacon e] ++ l from fun _ => rfl, HistoryNodes.sources_append]
          intro f hf
          rcases List.mem_append.mp hf with hf | hf
          · have : f = BeaconNode.summariesFor n.light s.beacon := by
              cases e <;> first | exact List.mem_singleton.mp hf | cases hf
            exact ⟨[], beaconEvents es, s.beacon, rfl, rfl, this⟩
          · exact h1 f hf
        · cases ht
      | state e =>
        simp only [step] at ht
        split at ht
        · cases ht; simp only [lived]; exact h1
        · cases ht
    · cases h

theorem Lives.parts {es : List Ev} {s : FullNode.State} (h : Lives n given tie es s) :
    BeaconNodes.Lives n.light given tie (beaconEvents es) s.beacon ∧
    HistoryNodes.Lives n.history (lived n (BeaconNode.fresh given tie BeaconStore.init) es) s.history ∧
    StateNodes.Lives n.state (stateEvents es) s.state := by
  obtain ⟨cfg, sps, store, cfg', sps', store', h1, h2, h3⟩ := h
  obtain ⟨e1, e2, e3⟩ := run_parts es h3
  exact ⟨e1, ⟨cfg, sps, store, h1, e2⟩, ⟨cfg', sps', store', h2, e3⟩⟩

theorem Lives.summaries {es : List Ev} {s : FullNode.State} (h : Lives n given tie es s) (ht : Trust n given tie es truth) :
    HistoryNodes.SummariesTrue (lived n (BeaconNode.fresh given tie BeaconStore.init) es) (truth.map historySummary) := by
  obtain ⟨cfg, sps, store, cfg', sps', store', h1, h2, h3⟩ := h
  refine C93_history ht.chain ht.late ht.assumed ht.unattended ht.early truth ht.states ht.sums ht.true ht.binding _ ?_
  exact lived_sources es h3

theorem Lives.of_run {es : List Ev} {s : FullNode.State} (h : Lives n given tie es s) :
    ∃ h0 t0, run n ⟨BeaconNode.fresh given tie BeaconStore.init, h0, t0⟩ es = some s := by
  obtain ⟨cfg, sps, store, cfg', sps', store', h1, h2, h3⟩ := h
  exact ⟨_, _, h3⟩

theorem beaconEvents_append (a b : List Ev) : beaconEvents (a ++ b) = beaconEvents a ++ beaconEvents b :=
  List.filterMap_append ..
theorem historyEvents_append (a b : List Ev) : historyEvents (a ++ b) = historyEvents a ++ historyEvents b :=
  List.filterMap_append ..
theorem stateEvents_append (a b : List Ev) : stateEvents (a ++ b) = stateEvents a ++ stateEvents b :=
  List.filterMap_append ..

theorem keys_part (a b : List Ev) (key : Legacy) :
    ∀ k ∈ key :: HistoryNodes.keys (historyEvents a), k ∈ key :: HistoryNodes.keys (historyEvents (a ++ b)) := by
  intro k hk
  rcases List.mem_cons.mp hk with rfl | hk
  · exact List.mem_cons_self ..
  · rw [historyEvents_append]; exact List.mem_cons_of_mem _ (HistoryNodes.keys_append hk)

theorem operator_part {a b : List Ev} (h : HistoryNodes.HonestOperator n.history (historyEvents (a ++ b))) :
    HistoryNodes.HonestOperator n.history (historyEvents a) := by
  rw [historyEvents_append] at h
  exact h.left

/-- A header that the node gives. -/
theorem genuine_header {es : List Ev} {s : FullNode.State} (hc : Clean n es) (hl : Lives n given tie es s) {key : Legacy} {bs : Bytes}
    (hg : Given n es s key bs) :
    HistoryNodes.Genuine n.history (lived n (BeaconNode.fresh given tie BeaconStore.init) es) key bs := by
  obtain ⟨h0, t0, hrun⟩ := hl.of_run
  rcases C91_gives n.history hc.sql _ _ hl.parts.2.1 (lived_operator es hrun hc.operator) key bs
    (by rw [lived_keys es hrun]; exact hg.ids) hg.gives with ⟨_, h⟩ | h
  · exact h
  · rw [(lived_same es hrun).2.1] at h
    exact absurd h hg.peer

theorem header_on_chain {es : List Ev} {s : FullNode.State} (hf : n.history.lib.Faithful) (hd : Describes L n.history truth)
    (ht : Trust n given tie es truth) (hc : Clean n es) (hl : Lives n given tie es s) {key : Legacy} {bs : Bytes}
    (hg : Given n es s key bs) {h : Hd} {p : HeaderProof}
    (hdec : Value.decode n.history.lib n.history.net key bs = some (.header h p)) :
    OnChain L n.history h p ∧ (∀ k, key = .headerByHash k → n.history.lib.keccak (n.history.lib.header.enc h) = k) ∧
      ∀ k, key = .headerByNumber k → (n.history.lib.view h).number = k := by
  obtain ⟨h0, t0, hrun⟩ := hl.of_run
  obtain ⟨cache, source, h1, h2, h3⟩ := C91_summaries n.history hc.sql _ _ hl.parts.2.1 (lived_operator es hrun hc.operator) _
    (hl.summaries ht) key bs (by rw [lived_keys es hrun]; exact hg.ids) hg.gives (by
      rw [(lived_same es hrun).2.1]; exact hg.peer) h p hdec
  refine ⟨accepted_on_chain hf hd h1 h2 h3, ?_, ?_⟩
  · rintro k rfl
    obtain ⟨h', p', e1, e2, _⟩ := genuine_header hc hl hg
    rw [hdec] at e1
    cases e1
    exact e2
  · rintro k rfl
    obtain ⟨h', p', e1, e2, _⟩ := genuine_header hc hl hg
    rw [hdec] at e1
    cases e1
    exact e2

/-! ## The endpoints -/

theorem Trust.part {a b : List Ev} (ht : Trust n given tie (a ++ b) truth) : Nonempty (Trust n given tie a truth) := by
  obtain ⟨h1, h2, h3, h4, h5, h6, h7, h8, h9⟩ := ht
  rw [beaconEvents_append] at h1 h3 h4 h5 h9
  exact ⟨BeaconNode.Late.less h1, h2, BeaconNode.Assumed.less h3, fun k v ho => h4 k v (BeaconNode.Operated.more _ ho),
    fun s k v ha => h5 s k v (BeaconNode.AcceptedIn.more _ ha), h6, h7, h8, fun s k f x h ha => h9 s k f x h (BeaconNode.AcceptedIn.more _ ha)⟩

theorem asked_of {es : List Ev} {api : EthRpc.Api Hd Tx Rc Wd} (hf : n.history.lib.Faithful) (hd : Describes L n.history truth)
    (ht : Trust n given tie es truth) (hc : Clean n es) (he : Endpoints n given tie es api) {block : EthRpc.BlockId} {h : Hd}
    (hh : EthRpc.headerOf api block = .ok h) : Asked L n.history api block h := by
  obtain ⟨key, bs, p, hk, h1, h2⟩ := EthRpc.headerOf_iff.mp hh
  obtain ⟨h3, h4, pre, post, s, rfl, hl, hg⟩ := he.history key bs h1
  rw [he.lib, he.net] at h2
  obtain ⟨ht'⟩ := ht.part
  have hg' : Given n pre s key bs := ⟨hg, fun h => h3 (by
    rw [historyEvents_append, HistoryNodes.operated_append]; exact List.mem_append_left _ h), h4.mono (keys_part pre post key)⟩
  obtain ⟨e1, e2, e3⟩ := header_on_chain hf hd ht' ⟨hc.sql, operator_part hc.operator⟩ hl hg' h2
  cases block with
  | hash k =>
    simp only at hk; subst hk
    exact ⟨⟨_, bs, p, rfl, h1, h2, e1⟩, fun k' hk' => by cases hk'; exact e2 k rfl, fun k' hk' => by cases hk'⟩
  | number k =>
    simp only at hk; subst hk
    exact ⟨⟨_, bs, p, rfl, h1, h2, e1⟩, fun k' hk' => (by cases hk'), fun k' hk' => by cases hk'; exact e3 k rfl⟩
  | tag => exact hk.elim

/-- The endpoints, asked only for headers, and with the state root of this header. -/
def fixed (api : EthRpc.Api Hd Tx Rc Wd) (h : Hd) : EthRpc.Api Hd Tx Rc Wd :=
  { headersOnly api with stateRoot := fun _ => api.stateRoot h }

theorem fixed_blockState {api : EthRpc.Api Hd Tx Rc Wd} {block : EthRpc.BlockId} {h : Hd} (hh : EthRpc.headerOf api block = .ok h) :
    EthRpc.blockState (fixed api h) block = EthRpc.blockState api block := by
  have e : EthRpc.headerOf (fixed api h) block = EthRpc.headerOf api block := by cases block <;> rfl
  have e' : (fixed api h).state = api.state := rfl
  unfold EthRpc.blockState
  rw [e, hh, e']
  rfl

theorem fixed_history {es : List Ev} {api : EthRpc.Api Hd Tx Rc Wd} {h : Hd} (hc : Clean n es) (he : Endpoints n given tie es api) :
    EthRpc.HistoryValidated (fixed api h) n.history.H n.history.trusted [] := by
  intro key bs hk
  have hgen : ∀ h : api.history key = some bs, ∃ evs, HistoryNodes.Genuine n.history evs key bs := by
    intro h
    obtain ⟨h3, h4, pre, post, s, rfl, hl, hg⟩ := he.history key bs h
    exact ⟨_, genuine_header ⟨hc.sql, operator_part hc.operator⟩ hl ⟨hg, fun h => h3 (by
      rw [historyEvents_append, HistoryNodes.operated_append]; exact List.mem_append_left _ h), h4.mono (keys_part pre post key)⟩⟩
  have hnone : ∀ source, HistoryValidator.HeadersValidated
      (⟨n.history.lib, n.history.H, n.history.net, n.history.trusted, source, fun _ => none⟩ : HistoryValidator.Env Hd Tx Rc Wd) := by
    intro source k b hb
    cases hb
  cases key with
  | headerByHash k =>
    obtain ⟨_, hd, p, h1, h2, cache, source, _, _, h3⟩ := hgen hk
    exact ⟨⟨n.history.lib, n.history.H, n.history.net, n.history.trusted, source, fun _ => none⟩, cache, he.lib.symm, he.net.symm,
      rfl, rfl, hnone source, (C58_by_hash _ cache k bs).mpr ⟨hd, p, h1, h2, h3⟩, fun _ _ _ _ hc => (nomatch hc)⟩
  | headerByNumber k =>
    obtain ⟨_, hd, p, h1, h2, cache, source, _, _, h3⟩ := hgen hk
    exact ⟨⟨n.history.lib, n.history.H, n.history.net, n.history.trusted, source, fun _ => none⟩, cache, he.lib.symm, he.net.symm,
      rfl, rfl, hnone source, (C58_by_number _ cache k bs).mpr ⟨hd, p, h1, h2, h3⟩, fun _ _ _ _ hc => (nomatch hc)⟩
  | blockBody k => cases hk
  | blockReceipts k => cases hk
  | ephemeralFind k m => cases hk
  | ephemeralOffer k => cases hk

theorem fixed_state {es : List Ev} {api : EthRpc.Api Hd Tx Rc Wd} {h : Hd} (hq : Store.Sql n.state.db)
    (he : Endpoints n given tie es api) : EthRpc.StateValidated (fixed api h) := by
  intro net hn
  have h1 := he.state net hn
  refine C94_reader n.state hq _ he.trie (stateEvents es) net ?_ fun key bs h => (h1 key bs h).1
  intro key bs h
  obtain ⟨_, pre, post, s, rfl, hl, hs⟩ := h1 key bs h
  exact ⟨stateEvents pre, stateEvents post, s.state, stateEvents_append .., hl.parts.2.2, hs⟩

/-! ## Summaries that arrived -/

section Serve
open ArchiveFlow

theorem tells_of {env : LightClient.Env} {b : BeaconNode.State} {f : BeaconValue.Fork} {x : BeaconValue.Summaries}
    (h : BeaconNode.get env b (.historicalSummaries x.epoch) = some (BeaconFormat.value (.summaries f x)))
    (hreach : (758 + x.summaries.1.length) * 256 ≤ x.epoch.toNat) :
    Tells (x.summaries.1.map historySummary) (BeaconNode.summariesFor env b) := by
  obtain ⟨h1, e, h2, h3⟩ := (BeaconNode.get_summaries ..).mp h
  constructor
  · intro e' l hl
    unfold BeaconNode.summariesFor at hl
    split at hl
    · cases hl
    · next bs hbs =>
      obtain ⟨_, e2, h4, _⟩ := (BeaconNode.get_summaries ..).mp hbs
      rw [h2] at h4
      cases h4
      rw [BeaconNode.decodeSummaries_value] at hl
      cases hl
      exact List.prefix_refl _
  · intro slot i hi hlt
    have hs : slot / 32 ≤ x.epoch.toNat := by
      unfold ChainHead.historicalSummaryIndex at hi
      split at hi
      · cases hi
      · cases hi
        have : ChainHead.capellaSlot = 6209536 := rfl
        simp only [List.length_map] at hlt
        omega
    have hof : (UInt64.ofNat (slot / 32)).toNat = slot / 32 := UInt64.toNat_ofNat_of_lt' (by simp [UInt64.size]; omega)
    have hg : BeaconNode.get env b (.historicalSummaries (UInt64.ofNat (slot / 32))) = some (BeaconFormat.value (.summaries f x)) :=
      (BeaconNode.get_summaries ..).mpr ⟨by omega, e, h2, by omega⟩
    refine ⟨x.summaries.1.map historySummary, ?_, hlt⟩
    unfold BeaconNode.summariesFor
    rw [hg]
    simp only [BeaconNode.decodeSummaries_value]
    rfl

/-- It does not matter what else the source would tell. -/
theorem told {n : HistoryNode.Node Hd Tx Rc Wd} {summaries : List Summary} {f g : Nat → Option (List Summary)} {s : HistoryNode.State}
    {ps : List Parcel} (hd : Delivery n summaries s (ps.map fun p => { p with source := f })) (hg : Tells summaries g) :
    Delivery n summaries s (ps.map fun p => { p with source := g }) where
  blocks p hp := by
    obtain ⟨q, hq, rfl⟩ := List.mem_map.mp hp
    obtain ⟨t, h1, h2⟩ := hd.blocks { q with source := f } (List.mem_map_of_mem hq)
    exact ⟨t, h1, h2.content, h2.header⟩
  first := by
    intro pre p post k hps hn hlook
    obtain ⟨a, b', rfl, h1, h2⟩ := List.map_eq_append_iff.mp hps
    obtain ⟨q, c, rfl, h3, h4⟩ := List.map_eq_cons_iff.mp h2
    subst h3
    rcases hd.first (a.map fun p => { p with source := f }) { q with source := f } (c.map fun p => { p with source := f }) k
      (by simp) hn hlook with h | ⟨r, hr, h5, h6⟩
    · exact .inl h
    · obtain ⟨r', hr', rfl⟩ := List.mem_map.mp hr
      exact .inr ⟨{ r' with source := g }, by rw [← h1]; exact List.mem_map_of_mem hr', h5, h6⟩
  cache := hd.cache
  tells p hp := by
    obtain ⟨q, hq, rfl⟩ := List.mem_map.mp hp
    exact hg
  room := by
    have hr := hd.room
    constructor
    · have := hr.capacity
      simpa [weight, List.map_map, Function.comp_def] using this
    · intro p hp
      obtain ⟨q, hq, rfl⟩ := List.mem_map.mp hp
      exact hr.radius { q with source := f } (List.mem_map_of_mem hq)
    · intro p hp
      obtain ⟨q, hq, rfl⟩ := List.mem_map.mp hp
      exact hr.fresh { q with source := f } (List.mem_map_of_mem hq)
    · have := hr.ids
      simpa [List.map_map, Function.comp_def] using this

theorem receive_atMoment (b : BeaconNode.State) (start : Nat) (p : Parcel) :
    (receive start p).map (atMoment n b) = receive start { p with source := BeaconNode.summariesFor n.light b } := by
  unfold receive
  simp only
  split
  · rfl
  · split <;> rfl

theorem feed_atMoment (b : BeaconNode.State) (start : Nat) (ps : List Parcel) :
    (feed start ps).map (atMoment n b) = feed start (ps.map fun p => { p with source := BeaconNode.summariesFor n.light b }) := by
  induction ps generalizing start with
  | nil => rfl
  | cons p ps ih =>
    simp only [feed, List.map_append, List.map_cons, receive_atMoment, ih]
    rfl

end Serve

end Networks

end Verif.Props.FullNodes
