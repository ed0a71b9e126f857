import Verif.Lemmas.BeaconValidator
import Verif.Props.BeaconValue
import Verif.Props.LightClient

/-! # C55: which beacon content is accepted -/

namespace Verif.Props
open Verif.BeaconValue Verif.SszT Verif.BeaconValidator Verif.Merkle
open BeaconFormat (Belongs)
open BeaconRules
open Verif.LightClient (Env Store Header headerRoot)

/-- Content is accepted exactly if it is the encoding of a value of the kind of its key that meets the rules.
(`now` is the current slot of the chain, past the first 120 days.) -/
theorem C55_accepts (env : Env) (net : Net) (now : Nat) (oracle : Oracle) (key : ContentKey.Beacon) (bs : Bytes)
    (hnow : 864000 ≤ now) :
    validate env net now oracle key bs = .valid ↔
      ∃ v, Belongs key v ∧ bs = BeaconFormat.value v ∧ Acceptable env net now oracle key v := by
  rw [validate_decode]
  constructor
  · intro h
    split at h
    · cases h
    · cases h
    · next v hv =>
      obtain ⟨h1, h2⟩ := (C54_accepts key bs v).mp hv
      exact ⟨v, h1, h2, (judge_valid env net now oracle key v hnow).mp h⟩
  · rintro ⟨v, h1, h2, h3⟩
    rw [(C54_accepts key bs v).mpr ⟨h1, h2⟩]
    exact (judge_valid env net now oracle key v hnow).mpr h3

/-- The validator does not abort on values that decode or are refused by the decoder, if the keys in the trusted
committees are well formed. -/
theorem C55_no_abort (env : Env) (net : Net) (now : Nat) (oracle : Oracle) (key : ContentKey.Beacon) (bs : Bytes)
    (hnow : 864000 ≤ now)
    (hkeys : ∀ s, oracle.store = some s → (∀ k ∈ s.current.pubkeys, env.keyOk k = true) ∧
      ∀ c, s.next = some c → ∀ k ∈ c.pubkeys, env.keyOk k = true) :
    validate env net now oracle key bs = .abort ↔ Value.decode key bs = .error .abort := by
  have hu : ∀ s, oracle.store = some s → ∀ u, verifyUpdate env net now s u ≠ .abort := by
    intro s hs u h
    unfold verifyUpdate at h
    split at h
    · cases h
    · next he => exact verify_no_panic env net now s u (hkeys s hs).1 (hkeys s hs).2 he
    · cases h
  have hus : ∀ s, oracle.store = some s → ∀ l, verifyUpdates env net now s l ≠ .abort := by
    intro s hs l
    induction l with
    | nil => simp [verifyUpdates]
    | cons v l ih =>
      obtain ⟨f, u⟩ := v
      cases f <;> simp only [verifyUpdates, ne_eq, reduceCtorEq, not_false_eq_true]
      split
      · exact ih
      · exact hu s hs _
  rw [validate_decode]
  split
  · next h => simp [h]
  · next h => simp [h]
  · next v h =>
    simp only [h, reduceCtorEq, iff_false]
    intro hj
    unfold judge at hj
    split at hj
    · rw [if_neg (show ¬ now < fourMonths from by show ¬ now < 864000; omega)] at hj
      split at hj
      · cases hj
      · split at hj
        · cases hj
        · split at hj <;> cases hj
    · split at hj
      · cases hj
      · split at hj
        · cases hj
        · next s hs => exact hus s hs _ hj
    · split at hj
      · cases hj
      · split at hj
        · cases hj
        · next s hs => exact hu s hs _ hj
    · split at hj
      · cases hj
      · split at hj
        · cases hj
        · next s hs => exact hu s hs _ hj
    · split at hj
      · cases hj
      · split at hj
        · cases hj
        · split at hj <;> cases hj
    · cases hj

/-! ## Historical summaries -/

/-- The pairs hashed for the root of a list of summaries. -/
def summariesPairs (H : Id → Id → Id) (l : List Summary) : List (Id × Id) :=
  (listRoot H 24 (l.map fun s => H s.blockRoot s.stateRoot), HeaderValidator.leNode l.length) ::
    (treePairs H 24 (fun i => (l.map fun s => H s.blockRoot s.stateRoot).getD i 0) ++
      l.map fun s => (s.blockRoot, s.stateRoot))

/-- Two lists of summaries with the same root are the same. -/
theorem C55_summaries_binding (H : Id → Id → Id) (a b : BList Summary 16777216)
    (h : summariesRoot H a.1 = summariesRoot H b.1) :
    a = b ∨ CollisionBetween H (summariesPairs H a.1) (summariesPairs H b.1) := by
  apply Classical.byContradiction
  intro hno
  rw [not_or] at hno
  obtain ⟨hne, hnc⟩ := hno
  have hpair : ∀ p ∈ summariesPairs H a.1, ∀ q ∈ summariesPairs H b.1, H p.1 p.2 = H q.1 q.2 → p = q := by
    intro p hp q hq he
    exact Classical.byContradiction fun hpq => hnc ⟨p, hp, q, hq, hpq, he⟩
  have htop := hpair _ List.mem_cons_self _ List.mem_cons_self h
  injection htop with hroot hlen
  have hlen' : a.1.length = b.1.length := by
    have ha := a.2
    have hb := b.2
    have e1 : (UInt64.ofNat a.1.length).toNat = a.1.length := UInt64.toNat_ofNat_of_lt' (by simp [UInt64.size]; omega)
    have e2 : (UInt64.ofNat b.1.length).toNat = b.1.length := UInt64.toNat_ofNat_of_lt' (by simp [UInt64.size]; omega)
    have := LightClient.leNode_inj (a := UInt64.ofNat a.1.length) (b := UInt64.ofNat b.1.length)
      (by rw [e1, e2]; exact hlen)
    rw [← e1, ← e2, this]
  rcases LightClient.treeRoot_inj H 24 _ _ hroot with hl | hc
  · apply hne
    apply Subtype.ext
    apply List.ext_getElem hlen'
    intro i h1 h2
    have hi := hl i (Nat.lt_of_lt_of_le h1 a.2)
    simp only [List.getD_eq_getElem?_getD, List.getElem?_map, List.getElem?_eq_getElem h1,
      List.getElem?_eq_getElem h2, Option.map_some, Option.getD_some] at hi
    have := hpair (a.1[i].blockRoot, a.1[i].stateRoot)
      (List.mem_cons_of_mem _ (List.mem_append_right _ (List.mem_map.mpr ⟨a.1[i], List.getElem_mem h1, rfl⟩)))
      (b.1[i].blockRoot, b.1[i].stateRoot)
      (List.mem_cons_of_mem _ (List.mem_append_right _ (List.mem_map.mpr ⟨b.1[i], List.getElem_mem h2, rfl⟩))) hi
    injection this with e1 e2
    cases ha : a.1[i]
    cases hb : b.1[i]
    rw [ha, hb] at e1 e2
    simp only at e1 e2
    rw [e1, e2]
  · obtain ⟨p, hp, q, hq, h1, h2⟩ := hc
    exact hnc ⟨p, List.mem_cons_of_mem _ (List.mem_append_left _ hp), q,
      List.mem_cons_of_mem _ (List.mem_append_left _ hq), h1, h2⟩

/-- While the light client knows the finalized state, accepted summaries are those in that state (leaf 27 of its
64), unless hashed pairs collide. -/
theorem C55_summaries_sound (env : Env) (net : Net) (now : Nat) (oracle : Oracle) (epoch : UInt64) (bs : Bytes)
    (state : Nat → Id) (real : BList Summary 16777216) (hnow : 864000 ≤ now)
    (ho : oracle.stateRoot = some (treeRoot env.H 6 state)) (hs : state 27 = summariesRoot env.H real.1)
    (h : validate env net now oracle (.historicalSummaries epoch) bs = .valid) :
    ∃ f x, bs = BeaconFormat.value (.summaries f x) ∧ x.epoch = epoch ∧
      (x.summaries = real ∨
        CollisionBetween env.H (summariesPairs env.H x.summaries.1) (summariesPairs env.H real.1) ∨
        CollisionBetween env.H (branchPairs env.H (summariesRoot env.H x.summaries.1) x.proof.1 27)
          (treePairs env.H 6 state)) := by
  obtain ⟨v, h1, h2, h3⟩ := (C55_accepts env net now oracle _ bs hnow).mp h
  cases v <;> first | exact h1.elim | skip
  next f x =>
  refine ⟨f, x, h2, h3.1, ?_⟩
  rcases C29_sound env.H state _ _ _ _ (h3.2 _ ho) with he | hc
  · exact (C55_summaries_binding env.H _ _ (he.trans hs)).imp_right Or.inl
  · exact Or.inr (Or.inr hc)

/-- And the summaries of that state are accepted, with a suitable proof, under the key of their epoch. -/
theorem C55_summaries_complete (env : Env) (net : Net) (now : Nat) (oracle : Oracle) (epoch : UInt64) (f : Fork)
    (state : Nat → Id) (real : BList Summary 16777216) (hnow : 864000 ≤ now)
    (ho : oracle.stateRoot = some (treeRoot env.H 6 state)) (hs : state 27 = summariesRoot env.H real.1) :
    ∃ proof, validate env net now oracle (.historicalSummaries epoch)
      (BeaconFormat.value (.summaries f ⟨epoch, real, proof⟩)) = .valid := by
  obtain ⟨b, hb⟩ := C29_complete env.H state 6 27 (by decide)
  have hl : b.length = 6 := by
    apply Classical.byContradiction
    intro hne
    rw [C29_length env.H _ _ _ _ _ hne] at hb
    cases hb
  refine ⟨⟨b, hl⟩, (C55_accepts env net now oracle _ _ hnow).mpr
    ⟨.summaries f ⟨epoch, real, ⟨b, hl⟩⟩, trivial, rfl, rfl, fun root he => ?_⟩⟩
  rw [ho] at he
  cases he
  rw [← hs]
  exact hb

/-! ## What an accepted update shows -/

/-- At least two thirds of the 512 committee members. -/
def TwoThirds (agg : SyncAggregate) : Prop := 2 * 512 ≤ 3 * ((List.range 512).filter (bit agg.bits.1)).length

/-- If the store of the light client follows the chain, whose committees sign only its headers by two thirds, an
accepted optimistic update with that many signatures is for a header of the chain. -/
theorem C55_optimistic_canonical (env : Env) (net : Net) (now : Nat) (oracle : Oracle) (ch : Chain) (s : Store)
    (slot : UInt64) (u : OptimisticUpdate .electra) (hnow : 864000 ≤ now) (ho : oracle.store = some s)
    (hf : ch.canonical s.finalized ∧ s.current = ch.committee (periodOf s.finalized) ∧
      ∀ n, s.next = some n → n = ch.committee (periodOf s.finalized + 1))
    (hhonest : ∀ h : Header, ∀ agg : SyncAggregate, TwoThirds agg →
      env.verifySig agg.signature.1
        (LightClient.signingRoot env.H net.genesisRoot (headerRoot env.H h) net.electraVersion)
        (signers (ch.committee (slot.toNat / 8192)) agg.bits.1) = true → ch.canonical h)
    (h : validate env net now oracle (.optimisticUpdate slot)
      (BeaconFormat.value (.optimistic ⟨.electra, u⟩)) = .valid)
    (h23 : TwoThirds u.aggregate) : ch.canonical u.attested.beacon ∧ u.signatureSlot = slot := by
  rw [validate_decode, (C54_accepts (.optimisticUpdate slot) _ (.optimistic ⟨.electra, u⟩)).mpr ⟨trivial, rfl⟩] at h
  obtain ⟨u', he, hslot, hok⟩ := (judge_valid env net now oracle _ _ hnow).mp h
  cases he
  obtain ⟨c, hc, -, hv⟩ := (hok s ho).signed.signed
  refine ⟨hhonest _ _ h23 ?_, hslot⟩
  rw [← hslot]
  rcases hc with ⟨hp, rfl⟩ | ⟨hp, hn⟩
  · rw [hp, show s.finalized.slot.toNat / 8192 = periodOf s.finalized from rfl, ← hf.2.1]
    exact hv
  · rw [hp, show s.finalized.slot.toNat / 8192 = periodOf s.finalized from rfl, ← hf.2.2 c hn]
    exact hv

/-! ## What is not checked -/

/-- The key of a bootstrap (the root of its block) is not compared with the bootstrap, the start of a range not
with the updates: content accepted under one key is accepted under every other. -/
theorem C55_key_ignored (env : Env) (net : Net) (now : Nat) (oracle : Oracle) (bs : Bytes) :
    (∀ k k', validate env net now oracle (.bootstrap k) bs = validate env net now oracle (.bootstrap k') bs) ∧
    (∀ s s' count, validate env net now oracle (.updatesByRange s count) bs =
      validate env net now oracle (.updatesByRange s' count) bs) := ⟨fun _ _ => rfl, fun _ _ _ => rfl⟩

/-- Nor are the committee of a bootstrap and its branch: whoever sends a bootstrap with the right header can put
any committee into it. -/
theorem C55_committee_unchecked (env : Env) (net : Net) (now : Nat) (oracle : Oracle) (k : Id) (f : Fork)
    (b : Bootstrap f) (c : SyncCommittee) (branch : Vec Id (committeeBranchLen f)) :
    validate env net now oracle (.bootstrap k)
        (BeaconFormat.value (.bootstrap ⟨f, { b with currentSyncCommittee := c, branch := branch }⟩)) =
      validate env net now oracle (.bootstrap k) (BeaconFormat.value (.bootstrap ⟨f, b⟩)) := by
  rw [validate_decode, validate_decode,
    (C54_accepts (.bootstrap k) _ (.bootstrap ⟨f, b⟩)).mpr ⟨trivial, rfl⟩,
    (C54_accepts (.bootstrap k) _ (.bootstrap ⟨f, { b with currentSyncCommittee := c, branch := branch }⟩)).mpr
      ⟨trivial, rfl⟩]
  rfl

/-- Nor the execution headers that come with the beacon headers. -/
theorem C55_execution_unchecked (env : Env) (net : Net) (now : Nat) (oracle : Oracle) (slot : UInt64)
    (u : FinalityUpdate .electra) (e e' : ExecPart .electra) :
    validate env net now oracle (.finalityUpdate slot)
        (BeaconFormat.value (.finality ⟨.electra,
          { u with attested := { u.attested with exec := e }, finalized := { u.finalized with exec := e' } }⟩)) =
      validate env net now oracle (.finalityUpdate slot) (BeaconFormat.value (.finality ⟨.electra, u⟩)) := by
  rw [validate_decode, validate_decode,
    (C54_accepts (.finalityUpdate slot) _ (.finality ⟨.electra, u⟩)).mpr ⟨trivial, rfl⟩,
    (C54_accepts (.finalityUpdate slot) _ (.finality ⟨.electra,
      { u with attested := { u.attested with exec := e }, finalized := { u.finalized with exec := e' } }⟩)).mpr
      ⟨trivial, rfl⟩]
  rfl

/-- Without a running light client nothing is checked but the form: every bootstrap that is young enough, every
range of the right number of updates of any fork, every Electra finality update whose slot is not below that of the
key, and all summaries of the right epoch are declared canonical. -/
theorem C55_unchecked (env : Env) (net : Net) (now : Nat) (hnow : 864000 ≤ now) :
    (∀ k f (b : Bootstrap f), now ≤ b.header.beacon.slot.toNat + 864000 →
      validate env net now ⟨none, none, none⟩ (.bootstrap k) (BeaconFormat.value (.bootstrap ⟨f, b⟩)) = .valid) ∧
    (∀ start (l : BList (Versioned Update) 128),
      validate env net now ⟨none, none, none⟩ (.updatesByRange start (UInt64.ofNat l.1.length))
        (BeaconFormat.value (.updates l)) = .valid) ∧
    (∀ u : FinalityUpdate .electra, validate env net now ⟨none, none, none⟩
      (.finalityUpdate u.finalized.beacon.slot) (BeaconFormat.value (.finality ⟨.electra, u⟩)) = .valid) ∧
    (∀ u : OptimisticUpdate .electra, validate env net now ⟨none, none, none⟩
      (.optimisticUpdate u.signatureSlot) (BeaconFormat.value (.optimistic ⟨.electra, u⟩)) = .valid) ∧
    (∀ f (x : Summaries), validate env net now ⟨none, none, none⟩ (.historicalSummaries x.epoch)
      (BeaconFormat.value (.summaries f x)) = .valid) := by
  refine ⟨fun k f b hb => ?_, fun start l => ?_, fun u => ?_, fun u => ?_, fun f x => ?_⟩
  · exact (C55_accepts env net now _ _ _ hnow).mpr ⟨.bootstrap ⟨f, b⟩, trivial, rfl, hb, nofun⟩
  · refine (C55_accepts env net now _ _ _ hnow).mpr ⟨.updates l, trivial, rfl, ?_, nofun⟩
    have := l.2
    exact (UInt64.toNat_ofNat_of_lt' (by simp [UInt64.size]; omega)).symm
  · exact (C55_accepts env net now _ _ _ hnow).mpr
      ⟨.finality ⟨.electra, u⟩, trivial, rfl, u, rfl, UInt64.le_refl _, nofun⟩
  · exact (C55_accepts env net now _ _ _ hnow).mpr ⟨.optimistic ⟨.electra, u⟩, trivial, rfl, u, rfl, rfl, nofun⟩
  · exact (C55_accepts env net now _ _ _ hnow).mpr ⟨.summaries f x, trivial, rfl, rfl, nofun⟩

/-! ## Concrete cases -/

namespace BeaconValidatorExample

def H (a b : Id) : Id := 3 * a + 5 * b + 7
/-- The signature is right if the one key `[1]` signed. -/
def env : Env := ⟨H, fun _ => true, fun _ _ keys => keys == [[1]]⟩
def net : Net := ⟨0, [5, 0, 0, 0]⟩
def exec : ExecPart .electra :=
  (⟨1, ⟨List.replicate 20 1, by decide⟩, 1, 1, ⟨List.replicate 256 0, List.length_replicate⟩, 0, 1, 2, 3, 4,
    ⟨[1, 2], by decide⟩, 5, 6, 7, 8, 9, 10⟩, ⟨[1, 2, 3, 4], by decide⟩)
/-- Only the first member takes part. -/
def agg : SyncAggregate := ⟨⟨1 :: List.replicate 63 0, by decide⟩, ⟨List.replicate 96 1, by decide⟩⟩
def fin : Header := ⟨1000000, 1, 2, 3, 4⟩
def att : Header := ⟨1000064, 1, 2, merkleRootFromBranch H (headerRoot H fin) (List.replicate 7 0) 41, 4⟩
def finality : FinalityUpdate .electra :=
  ⟨⟨att, exec⟩, ⟨fin, exec⟩, ⟨List.replicate 7 0, by decide⟩, agg, 1000065⟩
def optimistic : OptimisticUpdate .electra := ⟨⟨att, exec⟩, agg, 1000065⟩
def store : Store := ⟨⟨999900, 0, 0, 0, 0⟩, ⟨[[1], [2]], [3]⟩, none, ⟨999900, 0, 0, 0, 0⟩, 0, 0⟩
def oracle : Oracle := ⟨some fin, some store, some 5⟩

theorem signed : Signed env net 1000070 store att agg 1000065 where
  some_signer := ⟨0, by decide, by decide⟩
  order := by decide
  past := by decide
  signed := ⟨store.current, Or.inl ⟨by decide, rfl⟩, fun _ _ => rfl, by decide⟩

end BeaconValidatorExample

open BeaconValidatorExample in
/-- One signature of the 512 is enough for the validator: the two thirds are asked for only when the light
client applies an update. -/
theorem C55_one_signer_violated :
    ∃ env net now oracle, ∃ u : FinalityUpdate .electra, oracle.store.isSome = true ∧
      ((List.range 512).filter (bit u.aggregate.bits.1)).length = 1 ∧
      validate env net now oracle (.finalityUpdate u.finalized.beacon.slot)
        (BeaconFormat.value (.finality ⟨.electra, u⟩)) = .valid := by
  refine ⟨env, net, 1000070, oracle, finality, rfl, by decide +kernel, ?_⟩
  refine (C55_accepts _ _ _ _ _ _ (by decide)).mpr ⟨.finality ⟨.electra, finality⟩, trivial, rfl, finality, rfl,
    UInt64.le_refl _, fun s hs => ?_⟩
  cases hs
  exact ⟨signed, ⟨by decide, by decide +kernel⟩, by decide⟩

open BeaconValidatorExample in
/-- A bootstrap of the finalized header is accepted under a key that is not its root. -/
theorem C55_bootstrap_key_violated :
    ∃ env net now oracle k f, ∃ b : Bootstrap f, oracle.finalizedHeader.isSome = true ∧
      k ≠ headerRoot env.H b.header.beacon ∧
      validate env net now oracle (.bootstrap k) (BeaconFormat.value (.bootstrap ⟨f, b⟩)) = .valid := by
  refine ⟨env, net, 1000070, oracle, 0, .bellatrix,
    ⟨⟨fin, ()⟩, ⟨⟨List.replicate 512 ⟨List.replicate 48 1, by decide⟩, List.length_replicate⟩,
      ⟨List.replicate 48 1, by decide⟩⟩, ⟨List.replicate 5 0, by decide⟩⟩, rfl, by decide +kernel, ?_⟩
  refine (C55_accepts _ _ _ _ _ _ (by decide)).mpr ⟨_, ?_, rfl, by decide, ?_⟩
  · trivial
  · intro h hh
    cases hh
    rfl

namespace BeaconValidatorExample

example : validate env net 1000070 oracle (.optimisticUpdate 1000065)
    (BeaconFormat.value (.optimistic ⟨.electra, optimistic⟩)) = .valid :=
  (C55_accepts _ _ _ _ _ _ (by decide)).mpr ⟨.optimistic ⟨.electra, optimistic⟩, trivial, rfl, optimistic, rfl, rfl,
    fun s hs => by cases hs; exact ⟨signed, by decide⟩⟩

/-- The hypotheses on committees and state trees can be met. -/
example : ∀ s, oracle.store = some s → (∀ k ∈ s.current.pubkeys, env.keyOk k = true) ∧
    ∀ c, s.next = some c → ∀ k ∈ c.pubkeys, env.keyOk k = true :=
  fun _ _ => ⟨fun _ _ => rfl, fun _ _ _ _ => rfl⟩

example : ∃ (state : Nat → Id) (real : BList Summary 16777216), real.1.length = 2 ∧
    state 27 = summariesRoot H real.1 :=
  ⟨fun _ => summariesRoot H [⟨1, 2⟩, ⟨3, 4⟩], ⟨[⟨1, 2⟩, ⟨3, 4⟩], by decide⟩, rfl, rfl⟩

example : ∃ a : SyncAggregate, TwoThirds a := by
  refine ⟨⟨⟨List.replicate 64 255, by decide⟩, ⟨List.replicate 96 1, by decide⟩⟩, ?_⟩
  unfold TwoThirds
  decide +kernel

end BeaconValidatorExample

end Verif.Props
