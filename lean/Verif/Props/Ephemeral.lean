import Verif.Lemmas.Ephemeral

/-! # C69: the ephemeral history bridge offers chains of blocks -/

namespace Verif.Props
open Verif Verif.Ephemeral

variable {R : Type}

/-- Whatever happens and whatever the nodes answer: a bundle that is offered has 13 blocks, the first is the one that
the update names by its root, and each one is the parent of the one before. -/
theorem C69_bundle (u : Rules) (es : List (Event R)) (s : State R) (out : List (Effect R))
    (h : run u init es = some (s, out)) (head : Id) (bs : List (Block × R)) (hm : Effect.bundle head bs ∈ out) :
    Event.update head ∈ es ∧ bs.length = 13 ∧ ChainFrom u head (bs.map (·.1)) := by
  obtain ⟨pre, e, post, s1, s2, o1, o2, h1, h2, h3, h4⟩ := run_mem es h _ hm
  obtain ⟨h5, s3, h6⟩ := step_bundle h3 h4
  obtain ⟨more, h7, h8, h9⟩ := fill_chain totalBufferCount h6
  rw [List.nil_append] at h7
  subst h7
  refine ⟨?_, h8, h9⟩
  rw [h1, h5]
  simp

/-- If the nodes answer with the receipts of the block that was asked for, and no two different blocks with the same
number are ever downloaded (no reorg), then the receipts in every bundle are those of their blocks. -/
theorem C69_receipts_partial (u : Rules) (truth : Block → R) (es : List (Event R)) (s : State R) (out : List (Effect R))
    (htruth : ∀ r0 api, Event.head r0 api ∈ es →
      ∀ r b rc, api.block r = some b → api.receipts r b.number = some rc → rc = truth b)
    (huniq : ∀ r0 api, Event.head r0 api ∈ es → ∀ r1 api', Event.head r1 api' ∈ es →
      ∀ r r' b b', api.block r = some b → api'.block r' = some b' → b.number = b'.number → b = b')
    (h : run u init es = some (s, out)) (head : Id) (bs : List (Block × R)) (hm : Effect.bundle head bs ∈ out)
    (b : Block) (rc : R) (hb : (b, rc) ∈ bs) : rc = truth b := by
  have := run_recorded (u := u) (got := fun b => ∃ r0 api r, Event.head r0 api ∈ es ∧ api.block r = some b)
    (truth := truth) (by
      rintro b b' ⟨r0, api, r, h1, h2⟩ ⟨r1, api', r', h3, h4⟩ hn
      exact huniq r0 api h1 r1 api' h3 r r' b b' h2 h4 hn) es
    (s := init) (fun r0 api h => ⟨fun r b hb => ⟨r0, api, r, h, hb⟩, htruth r0 api h⟩)
    ⟨(fun _ h => by cases h), fun _ h => by cases h⟩ h
  exact this.2 head bs hm (b, rc) hb

/-- A bridge that follows a chain offers, for every one of the last 20 heads, the 13 blocks that end with it and their
receipts. -/
theorem C69_follows (u : Rules) (chain : Nat → Block) (len : Nat) (receipts : Nat → R) (start lo i : Nat)
    (es : List (Event R)) (hs : 0 < start) (hc : BeaconChain u chain len)
    (h : FollowsChain u chain len receipts start es lo i) (k : Nat) (hk : start + 12 ≤ k) (hki : k ≤ i) (hik : i ≤ k + 19) :
    ∃ s s' out, run u init es = some (s, out) ∧ run u init (es ++ [.update (u.root (chain k))]) = some (s', out ++
      [.bundle (u.root (chain k)) ((blocksBack chain (k - 12) (k + 1)).map fun b => (b, receipts b.number))]) := by
  obtain ⟨s, out, h1, h2, _⟩ := follows_good hc hs h
  obtain ⟨s', o, h4, _, _, h6⟩ := good_update hc hs h2 hki hik
  rw [h6 hk] at h4
  exact ⟨s, s', out, h1, run_snoc h1 (e := .update _) h4⟩

/-- The headers that a bridge has offered with proofs are exactly those of the chain from its first block up to the
last checkpoint, each one once. -/
theorem C69_proven (u : Rules) (chain : Nat → Block) (len : Nat) (receipts : Nat → R) (start lo i : Nat)
    (es : List (Event R)) (hs : 0 < start) (hc : BeaconChain u chain len)
    (h : FollowsChain u chain len receipts start es lo i) :
    ∃ s out, run u init es = some (s, out) ∧
      provenHeaders out = (List.range (lo - start)).map fun k => chain (start + k) := by
  obtain ⟨s, out, h1, _, h3⟩ := follows_good hc hs h
  refine ⟨s, out, h1, ?_⟩
  rw [h3, blocksBack, List.reverse_reverse]

/-- When there is no block in the first slot of a period, the checkpoint names the last block of the period before. It
is forgotten and its header is not offered. -/
theorem C69_skipped_slot_violated (u : Rules) (chain : Nat → Block) (len : Nat) (receipts : Nat → R) (start lo i : Nat)
    (es : List (Event R)) (hs : 0 < start) (hc : BeaconChain u chain len)
    (h : FollowsChain u chain len receipts start es lo i) (f period : Nat) (state : Id) (hlf : lo ≤ f) (hfi : f ≤ i)
    (hf : (chain f).slot < 8192 * (period + 1)) (hlo : 8192 * period ≤ (chain lo).slot)
    (hb : 8192 * (period + 1) < 2 ^ 64) :
    ∃ s out, run u init (es ++ [.final (256 * (period + 1)) (u.root (chain f)) state]) = some (s, out) ∧
      provenHeaders out = (List.range (f - start)).map (fun k => chain (start + k)) ∧
      chain f ∉ provenHeaders out ∧ lookup s.blocks (u.root (chain f)) = none := by
  obtain ⟨s, out, h1, h2, h3⟩ := follows_good hc hs h
  obtain ⟨s', h4, _, h6⟩ := final_ok hc hs h2 hlf hfi (Nat.le_of_lt hf) hlo hb (state := state)
  have hp : provenHeaders (out ++ [Effect.headers state (blocksBack chain lo f)] : List (Effect R)) =
      (List.range (f - start)).map (fun k => chain (start + k)) := by
    rw [provenHeaders_append, h3]
    show _ ++ ((blocksBack chain lo f).reverse ++ []) = _
    rw [List.append_nil, ← blocksBack_append h2.base hlf, blocksBack, List.reverse_reverse]
  refine ⟨s', _, run_snoc h1 (e := .final _ _ state) (congrArg some h4), hp, ?_, ?_⟩
  · rw [hp]
    intro hm
    obtain ⟨k, hk, he⟩ := List.mem_map.1 hm
    have := congrArg Block.number he
    rw [hc.number, hc.number] at this
    have := List.mem_range.1 hk
    omega
  · refine holds_none hc h6 (h2.blocks.2.2 f ⟨hlf, hfi⟩) ?_
    rintro ⟨_, _, h7⟩
    omega

/-- When one checkpoint was missed, the next one offers nothing: a block of the older period is found after all blocks
of the period have been removed, and they are lost. -/
theorem C69_missed_checkpoint_violated (u : Rules) (chain : Nat → Block) (len : Nat) (receipts : Nat → R)
    (start lo i : Nat) (es : List (Event R)) (hs : 0 < start) (hc : BeaconChain u chain len)
    (h : FollowsChain u chain len receipts start es lo i) (f m period : Nat) (state : Id) (hlm : lo < m) (hmf : m ≤ f)
    (hfi : f ≤ i) (hf : (chain f).slot = 8192 * (period + 1)) (hb : 8192 * (period + 1) < 2 ^ 64)
    (hm : 8192 * period ≤ (chain m).slot) (hm' : (chain (m - 1)).slot < 8192 * period) :
    ∃ s out s' , run u init es = some (s, out) ∧
      run u init (es ++ [.final (256 * (period + 1)) (u.root (chain f)) state]) = some (s', out) ∧
      ∀ k, m ≤ k → k < f → lookup s'.blocks (u.root (chain k)) = none := by
  obtain ⟨s, out, h1, h2, h3⟩ := follows_good hc hs h
  obtain ⟨lo', rfl⟩ : ∃ l, m = l + 1 := ⟨m - 1, by omega⟩
  obtain ⟨f', rfl⟩ : ∃ l, f = l + 1 := ⟨f - 1, by omega⟩
  have hlen := h2.blocks.2.2 (f' + 1) ⟨by omega, hfi⟩
  obtain ⟨m', h4, h5⟩ := walk_error hc (first := period * 8192) (lo := lo') (f' - lo') s.blocks.length (m := s.blocks)
    (r := (chain (f' + 1)).parent) (acc := []) (Nat.le_refl _) (by omega)
    (by rw [hc.parent, show lo' + 1 + (f' - lo') - 1 = f' by omega]) ⟨by omega, by omega⟩
    (by
      have hm'' : (chain lo').slot < 8192 * period := hm'
      unfold firstSlotInPeriod slotsPerPeriod
      intro h
      have := Nat.div_mul_le_self (chain lo').slot 8192
      omega)
    (fun k h1 h2 => ⟨⟨by omega, by omega⟩, period_of (Nat.le_trans hm (slot_mono hc h1))
      (by rw [← hf]; exact slot_lt hc (show k < f' + 1 by omega))⟩) h2.blocks
  refine ⟨s, out, { s with blocks := m' }, h1, ?_, fun k hk hkf => ?_⟩
  · have h6 : step u s (.final (256 * (period + 1)) (u.root (chain (f' + 1))) state) = some ({ s with blocks := m' }, []) := by
      show some (processFinal s _ _ _) = _
      unfold processFinal
      rw [if_neg (by unfold slotsPerPeriod slotsPerEpoch; omega), holds_some h2.blocks ⟨by omega, hfi⟩]
      simp only
      rw [expected_period hb, h4]
    have := run_snoc h1 h6
    rwa [List.append_nil] at this
  · refine holds_none hc h5 (by omega) ?_
    rintro ⟨_, h7⟩
    omega

namespace EphemeralExample

/-- Roots of the example: the number and what the payload adds. -/
def rules : Rules where
  root b := BitVec.ofNat 256 (b.number + 1000000 * b.payload)
  builds _ := true

/-- A chain with the blocks in some slots. -/
def chain (slot : Nat → Nat) (k : Nat) : Block :=
  { slot := slot k, parent := BitVec.ofNat 256 (k - 1), number := k, payload := 0 }

/-- Another block with number 14. -/
def fork : Block := { chain id 14 with payload := 1 }

/-- Nodes that know both blocks 14, and answer with the receipts of the block that is asked for. -/
def api (slot : Nat → Nat) : Api Nat where
  block r := if r = rules.root fork then some fork else some (chain slot r.toNat)
  receipts r _ := some (r.toNat)

theorem isChain (slot : Nat → Nat) (h : ∀ k, slot k < slot (k + 1)) : BeaconChain rules (chain slot) 999999 where
  number _ := rfl
  parent _ := rfl
  slot := h
  builds _ := rfl
  distinct := by
    intro j k hj hk h
    have h : BitVec.ofNat 256 (j + 1000000 * 0) = BitVec.ofNat 256 (k + 1000000 * 0) := h
    have := congrArg BitVec.toNat h
    simp only [BitVec.toNat_ofNat] at this
    omega

theorem answers (slot : Nat → Nat) : Answers rules (chain slot) 999999 (fun k => k) (api slot) := by
  intro k hk
  have e : (rules.root (chain slot k)).toNat = k := by
    show (BitVec.ofNat 256 (k + 1000000 * 0)).toNat = k
    rw [BitVec.toNat_ofNat]
    omega
  have hne : rules.root (chain slot k) ≠ rules.root fork := by
    intro h
    have := congrArg BitVec.toNat h
    rw [e] at this
    have h2 : (rules.root fork).toNat = 1000014 := by decide +kernel
    omega
  refine ⟨?_, ?_⟩
  · show (if _ then _ else _) = _
    rw [if_neg hne, e]
  · show some _ = _
    rw [e]

/-- Heads and updates, for blocks in any slots. -/
theorem heads (slot : Nat → Nat) (start : Nat) (h : start ≤ 900000) : FollowsChain rules (chain slot) 999999 (fun k => k) start
    [.head (rules.root (chain slot (start + 12))) (api slot), .head (rules.root (chain slot (start + 25))) (api slot),
      .update (rules.root (chain slot (start + 24))), .head (rules.root (chain slot (start + 38))) (api slot),
      .head (rules.root (chain slot (start + 51))) (api slot), .head (rules.root (chain slot (start + 64))) (api slot)]
    start (start + 64) :=
  .head (start + 64) (api slot) (.head (start + 51) (api slot) (.head (start + 38) (api slot) (.update (start + 24)
    (.head (start + 25) (api slot) (.start (api slot) (by omega) (answers slot)) (by omega) (by omega) (by omega)
      (answers slot)) (by omega) (by omega)) (by omega) (by omega) (by omega) (answers slot)) (by omega) (by omega)
    (by omega) (answers slot)) (by omega) (by omega) (by omega) (answers slot)

/-- A block in every slot: at the checkpoint of slot 8192 the headers of blocks 8150 to 8191 are offered with proofs. -/
example : ∃ s out, run rules init ([.head (rules.root (chain id 8162)) (api id), .head (rules.root (chain id 8175)) (api id),
      .update (rules.root (chain id 8174)), .head (rules.root (chain id 8188)) (api id),
      .head (rules.root (chain id 8201)) (api id), .head (rules.root (chain id 8214)) (api id)] ++
      [.head (rules.root (chain id 8227)) (api id)] ++ [.final 256 (rules.root (chain id 8192)) 7]) = some (s, out) ∧
    provenHeaders out = (List.range 42).map fun k => chain id (8150 + k) :=
  C69_proven rules (chain id) 999999 (fun k => k) 8150 8192 8227 _ (by decide) (isChain id fun k => Nat.lt_succ_self k)
    (.final 8192 0 7 (.head 8227 (api id) (heads id 8150 (by decide)) (by decide) (by decide) (by decide) (answers id))
      (by decide) (by decide) rfl (by decide) (by decide))

/-- The update for block 8200 after that offers blocks 8188 to 8200. -/
example : ∃ s s' out, run rules init ([.head (rules.root (chain id 8162)) (api id), .head (rules.root (chain id 8175)) (api id),
      .update (rules.root (chain id 8174)), .head (rules.root (chain id 8188)) (api id),
      .head (rules.root (chain id 8201)) (api id), .head (rules.root (chain id 8214)) (api id)]) = some (s, out) ∧
    run rules init ([.head (rules.root (chain id 8162)) (api id), .head (rules.root (chain id 8175)) (api id),
      .update (rules.root (chain id 8174)), .head (rules.root (chain id 8188)) (api id),
      .head (rules.root (chain id 8201)) (api id), .head (rules.root (chain id 8214)) (api id)] ++
      [.update (rules.root (chain id 8200))]) = some (s', out ++ [.bundle (rules.root (chain id 8200))
        ((blocksBack (chain id) 8188 8201).map fun b => (b, b.number))]) :=
  C69_follows rules (chain id) 999999 (fun k => k) 8150 8150 8214 _ (by decide) (isChain id fun k => Nat.lt_succ_self k)
    (heads id 8150 (by decide)) 8200 (by decide) (by decide) (by decide)

/-- Nodes that know one chain. -/
def single : Api Nat where
  block r := some (chain id r.toNat)
  receipts r _ := some (r.toNat)

/-- The hypotheses of `C69_receipts_partial` are met, and a bundle with 13 receipts is offered. -/
example : (∃ s bs, run rules init [.head (rules.root (chain id 14)) single, .update (rules.root (chain id 14))] =
      some (s, [.bundle (rules.root (chain id 14)) bs]) ∧ bs.length = 13) ∧
    ∀ s out, run rules init [.head (rules.root (chain id 14)) single, .update (rules.root (chain id 14))] = some (s, out) →
      ∀ head bs, Effect.bundle head bs ∈ out → ∀ b rc, (b, rc) ∈ bs → rc = b.number := by
  refine ⟨⟨_, _, rfl, by decide +kernel⟩, fun s out h => ?_⟩
  refine C69_receipts_partial rules (·.number) _ s out ?_ ?_ h
  · intro r0 a hm r b rc hb hrc
    have ha : a = single := by simp at hm; exact hm.2
    subst ha
    have h1 : some (chain id r.toNat) = some b := hb
    have h2 : some r.toNat = some rc := hrc
    rw [← Option.some.inj h1, ← Option.some.inj h2]
    rfl
  · intro r0 a hm r1 a' hm' r r' b b' hb hb' hn
    have ha : a = single := by simp at hm; exact hm.2
    have ha' : a' = single := by simp at hm'; exact hm'.2
    subst ha
    subst ha'
    have h1 : some (chain id r.toNat) = some b := hb
    have h2 : some (chain id r'.toNat) = some b' := hb'
    rw [← Option.some.inj h1, ← Option.some.inj h2] at hn ⊢
    have hn : r.toNat = r'.toNat := hn
    rw [hn]

/-- Slots without a block in slot 8192. -/
def skip (k : Nat) : Nat := if k < 8192 then k else k + 1

/-- Block 8191 is lost. -/
example : ∃ s out, run rules init ([.head (rules.root (chain skip 8162)) (api skip),
      .head (rules.root (chain skip 8175)) (api skip), .update (rules.root (chain skip 8174)),
      .head (rules.root (chain skip 8188)) (api skip), .head (rules.root (chain skip 8201)) (api skip),
      .head (rules.root (chain skip 8214)) (api skip)] ++ [.final 256 (rules.root (chain skip 8191)) 7]) = some (s, out) ∧
    provenHeaders out = (List.range 41).map (fun k => chain skip (8150 + k)) ∧
    chain skip 8191 ∉ provenHeaders out ∧ lookup s.blocks (rules.root (chain skip 8191)) = none :=
  C69_skipped_slot_violated rules (chain skip) 999999 (fun k => k) 8150 8150 8214 _ (by decide)
    (isChain skip fun k => by unfold skip; split <;> split <;> omega) (heads skip 8150 (by decide)) 8191 0 7 (by decide) (by decide)
    (by decide) (by decide) (by decide)

/-- Slots with a block in every 256th: 32 blocks in a period. -/
def sparse (k : Nat) : Nat := 256 * k

/-- The checkpoint at block 32 was missed, the one at block 64 offers nothing, and blocks 32 to 63 are lost. -/
example : ∃ s out s', run rules init [.head (rules.root (chain sparse 32)) (api sparse),
      .head (rules.root (chain sparse 45)) (api sparse), .update (rules.root (chain sparse 44)),
      .head (rules.root (chain sparse 58)) (api sparse), .head (rules.root (chain sparse 71)) (api sparse),
      .head (rules.root (chain sparse 84)) (api sparse)] = some (s, out) ∧
    run rules init ([.head (rules.root (chain sparse 32)) (api sparse),
      .head (rules.root (chain sparse 45)) (api sparse), .update (rules.root (chain sparse 44)),
      .head (rules.root (chain sparse 58)) (api sparse), .head (rules.root (chain sparse 71)) (api sparse),
      .head (rules.root (chain sparse 84)) (api sparse)] ++ [.final 512 (rules.root (chain sparse 64)) 7]) = some (s', out) ∧
    ∀ k, 32 ≤ k → k < 64 → lookup s'.blocks (rules.root (chain sparse k)) = none :=
  C69_missed_checkpoint_violated rules (chain sparse) 999999 (fun k => k) 20 20 84 _ (by decide)
    (isChain sparse fun k => by unfold sparse; omega) (heads sparse 20 (by decide)) 64 32 1 7 (by decide) (by decide)
    (by decide) rfl (by decide) (by decide) (by decide)

end EphemeralExample

open EphemeralExample in
/-- The cache of receipts is by block number: the nodes always answer with the receipts of the block that is asked for,
but when there are two blocks with the same number, the second one's receipts are offered with the first one. -/
theorem C69_receipts_violated : ∃ (u : Rules) (truth : Block → Nat) (es : List (Event Nat)) (s : State Nat)
    (head : Id) (bs : List (Block × Nat)) (b : Block) (rc : Nat),
    (∀ r0 api, Event.head r0 api ∈ es → ∀ r b rc, r = u.root b → api.block r = some b →
      api.receipts r b.number = some rc → rc = truth b) ∧
    run u init es = some (s, [.bundle head bs]) ∧ (b, rc) ∈ bs ∧ rc ≠ truth b := by
  refine ⟨rules, fun b => (rules.root b).toNat, [.head (rules.root (chain id 14)) (api id), .head (rules.root fork) (api id),
    .update (rules.root (chain id 14))], _, _, _, chain id 14, 1000014, ?_, rfl, ?_, ?_⟩
  · intro r0 a hm r b rc hr _ hrc
    have ha : a = api id := by
      simp only [List.mem_cons, Event.head.injEq, List.not_mem_nil, or_false] at hm
      rcases hm with ⟨_, h⟩ | ⟨_, h⟩ | h
      · exact h
      · exact h
      · cases h
    subst ha
    have : some r.toNat = some rc := hrc
    rw [← Option.some.inj this, hr]
  · decide +kernel
  · decide +kernel

end Verif.Props
