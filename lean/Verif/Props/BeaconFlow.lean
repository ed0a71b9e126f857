import Verif.Lemmas.BeaconFlow

/-! # C98: light clients can follow the chain with what bridges and nodes give them

The other direction of C41, C84 and C93: not only is nothing accepted that should not be, but if the consensus client of the bridge
is right and the node keeps what it is sent, a light client that asks this node starts, and then stays at the newest finalized
header and the newest header from turn to turn. -/

namespace Verif.Props
open Verif.BeaconValue Verif.BeaconValidator Verif.SszT Verif.Merkle Verif.LightNode
open Verif.LightClient (Env Client Committee Header headerRoot committeeRoot)
open BeaconFlow BeaconNodes BeaconFormat BeaconFeed
open Verif.BeaconBridge

variable {σ : Type} {env : Env} {ch : Chain} {root : Id} {now : Nat}

/-! ## The light client -/

/-- If the node that its lookups reach gives the bootstrap of the trusted root, the update of each period since, and the newest
finality and optimistic update, then the light client starts at the first attempt, at the newest headers.
Missing: slots without an optimistic update, see `C98_slot_violated`. -/
theorem C98_start_partial (web : Web (Asked σ)) (w : Portal σ) (node : BeaconNode.State) (d : Course) (file : Option Bytes) (s : Asked σ)
    (hw : Finds env w node) (hc : InSlot w now) (hd : Sound env ch root now d) (hg : GivesAll env node root now d) :
    ∃ n s', beaconSync env web (portalRpc w) root file s = ((none, some n, 1), s') ∧
      n.client.store.finalized = d.final.finalized.beacon ∧ n.client.store.optimistic = d.head.attested.beacon ∧
      Tracks ch now n.client := by
  obtain ⟨c, s', h, h1, h2, h3⟩ := sync_ok hw hc hd hg emptyClient s
  have hsync : (LightLife.freshNode (portalRpc w) root).sync env s = ((none, { LightLife.freshNode (portalRpc w) root with client := c }), s') := by
    have : (LightLife.freshNode (portalRpc w) root).sync env s =
        (((LightNode.sync env (LightLife.mainnetConfig root) beaconGenesis (portalRpc w) emptyClient s).1.2,
          { LightLife.freshNode (portalRpc w) root with
            client := (LightNode.sync env (LightLife.mainnetConfig root) beaconGenesis (portalRpc w) emptyClient s).1.1 }),
          (LightNode.sync env (LightLife.mainnetConfig root) beaconGenesis (portalRpc w) emptyClient s).2) := rfl
    rw [this, h]
  have hstart : (LightLife.freshNode (portalRpc w) root).start env web s =
      ((none, { LightLife.freshNode (portalRpc w) root with client := c, threads := 1 }), s') := by
    have : (LightLife.freshNode (portalRpc w) root).settings.rpcPort.isSome = false := rfl
    simp only [Node.start, this, Bool.false_eq_true, if_false, hsync]
    rfl
  refine ⟨{ LightLife.freshNode (portalRpc w) root with client := c, threads := 1 }, s', ?_, h1, h2, h3⟩
  rw [beaconSync_eq]
  simp only [attempts, hstart]

/-- From then on each turn brings it to what the network has at that turn. -/
theorem C98_turn (c : Client) (t : Turn σ) (hm : Meets env ch c.store.finalized c.store.optimistic t) (hc : Tracks ch t.now c) :
    ∃ c' s', LightNode.advance env (LightLife.mainnetConfig root) (portalRpc t.world) c t.state = ((c', none), s') ∧
      c'.store.finalized = t.final.finalized.beacon ∧ c'.store.optimistic = t.head.attested.beacon ∧ Keeps ch c' :=
  turn_ok hm hc

/-- However many turns there are: after each of them it is at the newest headers. -/
theorem C98_turns (ts : List (Turn σ)) (c : Client) (hc : Keeps ch c)
    (hs : Sequence env ch c.store.finalized c.store.optimistic ts) :
    Keeps ch (after env root c ts) ∧
      ∀ t, ts.getLast? = some t → (after env root c ts).store.finalized = t.final.finalized.beacon ∧
        (after env root c ts).store.optimistic = t.head.attested.beacon := by
  induction ts generalizing c with
  | nil => exact ⟨hc, fun t ht => by simp at ht⟩
  | cons t ts ih =>
    obtain ⟨h1, h2, h3⟩ := hs
    have htr : Tracks ch t.now c := ⟨hc.current, fun n hn => by rw [hc.next] at hn; exact (Option.some.inj hn).symm,
      h2.imp id fun h => ⟨h, by rw [hc.next]; simp⟩, hc.counts⟩
    obtain ⟨c', s', e, f, o, k⟩ := turn_ok (root := root) h1 htr
    have ha : after env root c (t :: ts) = after env root c' ts := by simp only [after, e]
    rw [ha]
    rw [← f, ← o] at h3
    obtain ⟨i1, i2⟩ := ih c' k h3
    refine ⟨i1, fun u hu => ?_⟩
    cases ts with
    | nil =>
      cases hu
      exact ⟨f, o⟩
    | cons a ts => exact i2 u (by simpa using hu)

/-! ## The node -/

section
variable {given : Option Id} {tie : Nat} {es : List BeaconNode.Ev} {s : BeaconNode.State}

/-- What the bridge announces, and the light client of the node agrees with, the node gives once it has been kept. -/
theorem C98_fed {Peer : Type} (hl : Late es) (h : Lives env given tie es s) (hnow : 864000 ≤ now) (evs : List (Event Peer))
    (a : Announcement Peer) (ha : a ∈ (exec env.H Bridge.start evs).log) (hag : Agrees env mainnet now (view s.client) a.value)
    (hnew : Lacks env s a.key) (hfit : Fits env a.key a.value) :
    ∃ s', BeaconNode.run env s [.arrived a.key a.value.encode now, .keep s.held.length (fun _ => true)] = some s' ∧
      BeaconNode.get env s' a.key = some a.value.encode := by
  have hv := (C77_accepted env mainnet now (view s.client) hnow evs a ha).mpr hag
  obtain ⟨v, hb, he, hok⟩ := (C55_accepts env mainnet now _ _ _ hnow).mp hv
  have hb' : Belongs a.key a.value := by
    have hg := (C77_genuine env.H evs a ha).1
    obtain ⟨key, value, peers⟩ := a
    cases key with
    | bootstrap root => obtain ⟨-, w, -, b, -, rfl⟩ := hg; trivial
    | updatesByRange period count => obtain ⟨-, -, w, -, u, rest, h, -, -, rfl⟩ := hg; trivial
    | finalityUpdate slot => obtain ⟨w, -, u, -, -, rfl⟩ := hg; trivial
    | optimisticUpdate slot => obtain ⟨w, -, u, -, -, rfl⟩ := hg; trivial
    | historicalSummaries epoch => obtain ⟨-, w, -, st, proof, -, -, rfl, -⟩ := hg; trivial
  have : a.value = v := by
    rw [← C54_format] at he
    have e1 := C54_roundtrip a.key a.value hb'
    rw [he, C54_roundtrip a.key v hb] at e1
    cases e1
    rfl
  subst this
  rw [he]
  exact C93_keeps hl h a.key a.value now hnow hb hok hnew hfit

/-- A node that gives a finality update for a slot gives it for all earlier ones, in particular for slot 0, which is what light
clients ask for. -/
theorem C98_finality (slot slot' : UInt64) (bs : Bytes) (hs : slot' ≤ slot)
    (h : BeaconNode.get env s (.finalityUpdate slot) = some bs) : BeaconNode.get env s (.finalityUpdate slot') = some bs := by
  simp only [BeaconNode.get, BeaconNode.storeKey, BeaconStore.get, BeaconStore.getFinality] at h ⊢
  split at h
  · cases h
  · next f hf =>
    split at h
    · cases h
    · next x hx =>
      split at h
      · next hle => rw [if_pos (UInt64.le_trans hs hle)]; exact h
      · cases h

/-- Updates that a node gives it gives for ever, and a bootstrap until it is 120 days old. -/
theorem C98_kept (hl : Late es) (h : Lives env given tie es s) (more : List BeaconNode.Ev) (hl' : Late more) (s' : BeaconNode.State)
    (hr : BeaconNode.run env s more = some s') :
    (∀ start count bs, BeaconNode.get env s (.updatesByRange start count) = some bs →
      BeaconNode.get env s' (.updatesByRange start count) = some bs) ∧
    ∀ root v, BeaconNode.get env s (.bootstrap root) = some (BeaconFormat.value (.bootstrap v)) →
      (∀ now, .prune now ∈ more → now ≤ v.2.header.beacon.slot.toNat + 864000) →
      BeaconNode.get env s' (.bootstrap root) = some (BeaconFormat.value (.bootstrap v)) := by
  obtain ⟨h1, h2⟩ := BeaconNode.run_rows hr
  refine ⟨fun start count bs hg => ?_, fun root v hg hp => ?_⟩
  · simp only [BeaconNode.get, BeaconNode.storeKey, BeaconStore.get] at hg ⊢
    split at hg
    · next r hr =>
      subst hg
      split at hr
      · cases hr
      · cases hr
      · next us hu => rw [BeaconNode.collect_kept h1 _ _ _ hu]; simp only [hr]
    · cases hg
  · have hf := (BeaconNode.reach hl h).facts
    obtain ⟨r, hr1, h3, h4⟩ := BeaconNode.lookupBoot_mem (st := s.store) (root := root.bytes) hg
    obtain ⟨v', k, f1, -, f3, -⟩ := hf.boots r hr1
    have := BeaconNode.value_boot_inj (f1.symm.trans h4)
    subst this
    have hm := h2 r hr1 (by rw [f3]; exact hp)
    have hs' : Lives env given tie (es ++ more) s' := by
      rw [Lives, BeaconNode.run_append, show BeaconNode.run env _ es = some s from h]
      exact hr
    have hn := (BeaconNode.reach (show Late (es ++ more) from fun k b n hm => (List.mem_append.mp hm).elim (hl k b n) (hl' k b n)) hs').facts.nodup
    show BeaconStore.lookupBoot s'.store root.bytes = _
    rw [← h3, BeaconNode.lookupBoot_of_mem hn hm, h4]

/-- A node whose own light client is near finds the newest updates, and the update of a period it knows the committee of, acceptable. -/
theorem C98_welcome (c : Client) (hc : Tracks ch now c) (final : FinalityUpdate .electra) (head : OptimisticUpdate .electra)
    (hp : Present env ch now final head) (hf : c.store.finalized.slot < final.attested.beacon.slot)
    (hh : c.store.finalized.slot < head.attested.beacon.slot) :
    BeaconRules.Acceptable env mainnet now (view (some c)) (.finalityUpdate final.finalized.beacon.slot) (.finality ⟨.electra, final⟩) ∧
    BeaconRules.Acceptable env mainnet now (view (some c)) (.optimisticUpdate head.signatureSlot) (.optimistic ⟨.electra, head⟩) := by
  have hsg : ∀ (x : Header) (agg : SyncAggregate) (slot : UInt64), Attested env ch x agg slot → slot.toNat ≤ now →
      slot.toNat / 8192 = now / 8192 → BeaconRules.Signed env mainnet now c.store x agg slot := by
    intro x agg slot ha hs hper
    have hsome := some_bits ha.majority
    rw [count_bits] at hsome
    obtain ⟨i, hi⟩ := List.exists_mem_of_length_pos hsome
    obtain ⟨i1, i2⟩ := List.mem_filter.mp hi
    have hkey : ∀ k ∈ BeaconRules.signers (ch.committee (slot.toNat / 8192)) agg.bits.1, env.keyOk k = true := by
      intro k hk
      obtain ⟨z, hz, rfl⟩ := List.mem_map.mp hk
      refine ha.keys _ ?_
      have hz := (List.mem_filter.mp hz).1
      rw [(List.mem_zipIdx' hz).2]; exact List.getElem_mem _
    refine ⟨⟨i, List.mem_range.mp i1, i2⟩, ha.order, hs, ch.committee (slot.toNat / 8192), ?_, hkey, ha.signed⟩
    rcases hc.near with h | ⟨h, hn⟩
    · exact .inl ⟨hper.trans h, by rw [hc.current, hper, h]⟩
    · refine .inr ⟨hper.trans h, ?_⟩
      obtain ⟨n, hn⟩ := Option.ne_none_iff_exists'.mp hn
      rw [hn, hc.next n hn, hper, h]
  refine ⟨⟨final, rfl, UInt64.le_refl _, ?_⟩, ⟨head, rfl, rfl, ?_⟩⟩
  · rintro _ ⟨⟩
    exact ⟨hsg _ _ _ hp.final_signed hp.past hp.period, hp.proof, hf⟩
  · rintro _ ⟨⟩
    exact ⟨hsg _ _ _ hp.head_signed (Nat.le_of_eq hp.slot) (by rw [hp.slot]), hh⟩

/-- So such a node gives to light clients what it was sent, right after it was sent it. -/
theorem C98_fresh (hl : Late es) (h : Lives env given tie es s) (c : Client) (hcl : s.client = some c) (hc : Tracks ch now c)
    (final : FinalityUpdate .electra) (head : OptimisticUpdate .electra) (hnow : 864000 ≤ now)
    (hp : Present env ch now final head) (hf : c.store.finalized.slot < final.attested.beacon.slot)
    (hh : c.store.finalized.slot < head.attested.beacon.slot)
    (nf : BeaconNode.get env s (.finalityUpdate final.finalized.beacon.slot) = none)
    (nh : BeaconNode.get env s (.optimisticUpdate head.signatureSlot) = none) :
    ∃ s', BeaconNode.run env s
        [.arrived (.finalityUpdate final.finalized.beacon.slot) (value (.finality ⟨.electra, final⟩)) now,
          .keep s.held.length (fun _ => true),
          .arrived (.optimisticUpdate head.signatureSlot) (value (.optimistic ⟨.electra, head⟩)) now,
          .keep (s.held.length + 1) (fun _ => true)] = some s' ∧ Gives env s' now final head := by
  obtain ⟨a1, a2⟩ := C98_welcome c hc final head hp hf hh
  rw [← hcl] at a1 a2
  have v1 : validate env BeaconNode.net now (BeaconNode.oracleOf s.client) (.finalityUpdate final.finalized.beacon.slot)
      (value (.finality ⟨.electra, final⟩)) = .valid := (C55_accepts env _ now _ _ _ hnow).mpr ⟨.finality ⟨.electra, final⟩, trivial, rfl, a1⟩
  have v2 : validate env BeaconNode.net now (BeaconNode.oracleOf s.client) (.optimisticUpdate head.signatureSlot)
      (value (.optimistic ⟨.electra, head⟩)) = .valid := (C55_accepts env _ now _ _ _ hnow).mpr ⟨.optimistic ⟨.electra, head⟩, trivial, rfl, a2⟩
  have d1 := BeaconNode.decFin_value env.H ⟨.electra, final⟩
  have d2 := BeaconNode.decOpt_value env.H ⟨.electra, head⟩
  have f1 := BeaconNode.encFin_value env.H ⟨.electra, final⟩
  have f2 := BeaconNode.encOpt_value env.H ⟨.electra, head⟩
  generalize value (.finality ⟨.electra, final⟩) = b1 at *
  generalize value (.optimistic ⟨.electra, head⟩) = b2 at *
  have n1 : BeaconStore.getFinality (BeaconNode.codec env.H) s.store final.finalized.beacon.slot = none := by
    simpa [BeaconNode.get, BeaconNode.storeKey, BeaconStore.get] using nf
  have n2 : BeaconStore.getOptimistic (BeaconNode.codec env.H) s.store head.signatureSlot = none := by
    simpa [BeaconNode.get, BeaconNode.storeKey, BeaconStore.get] using nh
  have e1 : BeaconNode.step env s (.arrived (.finalityUpdate final.finalized.beacon.slot) b1 now) =
      some { s with held := s.held ++ [(.finalityUpdate final.finalized.beacon.slot, b1)] } := by
    simp only [BeaconNode.step, v1]
  have e2 : BeaconNode.step env { s with held := s.held ++ [(.finalityUpdate final.finalized.beacon.slot, b1)] }
      (.keep s.held.length fun _ => true) =
      some { s with held := s.held ++ [(.finalityUpdate final.finalized.beacon.slot, b1)], store := { s.store with fin := some ⟨.electra, final⟩ } } := by
    simp only [BeaconNode.step, List.getElem?_concat_length, BeaconNode.putIf, if_true, BeaconNode.storeKey, BeaconStore.shouldWeStore, n1,
      Option.isSome_none, Bool.false_eq_true, if_false, BeaconStore.put, d1]
  have e3 : BeaconNode.step env { s with held := s.held ++ [(.finalityUpdate final.finalized.beacon.slot, b1)], store := { s.store with fin := some ⟨.electra, final⟩ } }
      (.arrived (.optimisticUpdate head.signatureSlot) b2 now) =
      some { s with held := s.held ++ [(.finalityUpdate final.finalized.beacon.slot, b1)] ++ [(.optimisticUpdate head.signatureSlot, b2)],
                    store := { s.store with fin := some ⟨.electra, final⟩ } } := by
    simp only [BeaconNode.step, v2]
  have n3 : BeaconStore.getOptimistic (BeaconNode.codec env.H) { s.store with fin := some ⟨.electra, final⟩ } head.signatureSlot = none := n2
  have e4 : BeaconNode.step env
      { s with held := s.held ++ [(.finalityUpdate final.finalized.beacon.slot, b1)] ++ [(.optimisticUpdate head.signatureSlot, b2)],
               store := { s.store with fin := some ⟨.electra, final⟩ } } (.keep (s.held.length + 1) fun _ => true) =
      some { s with held := s.held ++ [(.finalityUpdate final.finalized.beacon.slot, b1)] ++ [(.optimisticUpdate head.signatureSlot, b2)],
                    store := { s.store with fin := some ⟨.electra, final⟩, opt := some ⟨.electra, head⟩ } } := by
    have : (s.held ++ [(.finalityUpdate final.finalized.beacon.slot, b1)] ++ [(.optimisticUpdate head.signatureSlot, b2)])[s.held.length + 1]? =
        some ((.optimisticUpdate head.signatureSlot, b2) : ContentKey.Beacon × Bytes) := by
      rw [List.getElem?_append_right (by simp)]; simp
    simp only [BeaconNode.step, this, BeaconNode.putIf, if_true, BeaconNode.storeKey, BeaconStore.shouldWeStore, n3, BeaconStore.put, d2]
  refine ⟨_, by simp only [BeaconNode.run, e1, e2, e3, e4]; rfl, ?_, ?_⟩
  · simp only [BeaconNode.get, BeaconNode.storeKey, BeaconStore.get, BeaconStore.getFinality, BeaconNode.codec]
    rw [if_pos (UInt64.zero_le)]
    exact congrArg some (BeaconNode.encFin_value env.H ⟨.electra, final⟩)
  · have : head.signatureSlot = UInt64.ofNat now := by rw [← hp.slot, UInt64.ofNat_toNat]
    rw [← this]
    have hget : BeaconStore.getOptimistic (BeaconNode.codec env.H)
        { s.store with fin := some ⟨.electra, final⟩, opt := some ⟨.electra, head⟩ } head.signatureSlot = some ⟨.electra, head⟩ :=
      if_pos (UInt64.le_refl _)
    simp only [BeaconNode.get, BeaconNode.storeKey, BeaconStore.get, hget]
    exact congrArg some (BeaconNode.encOpt_value env.H ⟨.electra, head⟩)

/-! ## Where it goes wrong -/

/-- In a slot for which no optimistic update can be found, as when there is no block to sign, no attempt at a start succeeds,
whatever else the network has. -/
theorem C98_slot_violated (web : Web (Asked σ)) (w : Portal σ) (file : Option Bytes) (a : Asked σ) (hc : InSlot w now)
    (hno : ∀ t, (w.lookup (.optimisticUpdate (UInt64.ofNat now)) t).1 = none) :
    (beaconSync env web (portalRpc w) root file a).1.1 ≠ none := by
  refine no_start web w root file a fun c s => ?_
  have hlast : ∀ c s, (latestOptimistic env (LightLife.mainnetConfig root) (portalRpc w) c s).1.2 ≠ none := by
    intro c s
    have : ((portalRpc w).optimistic s).1 = .error .other := by
      simp only [portalRpc, Portal.tick, slot_now hc s, Portal.find, hno, readAs]
    simp only [latestOptimistic, this]
    simp
  have hlatest : ∀ c s, (LightNode.latest env (LightLife.mainnetConfig root) (portalRpc w) c s).1.2 ≠ none := by
    intro c s
    unfold LightNode.latest
    dsimp only
    split
    · simp
    · exact hlast _ _
  unfold LightNode.sync syncFrom
  dsimp only
  repeat' split
  all_goals first | exact hlatest _ _ | simp

/-- The committee of a bootstrap is not checked by nodes (C55), and nodes never replace a bootstrap. So whoever is the first to
send the bootstrap of a header, with a committee of their own making, has the node give that one from then on, and no light
client that is given it starts. -/
theorem C98_poisoned_violated (hl : Late es) (h : Lives env given tie es s) (hnow : 864000 ≤ now) (v : Bootstrap .electra)
    (hok : BeaconRules.Acceptable env mainnet now (view s.client) (.bootstrap (headerRoot env.H v.header.beacon)) (.bootstrap ⟨.electra, v⟩))
    (hnew : BeaconNode.get env s (.bootstrap (headerRoot env.H v.header.beacon)) = none) (hslot : v.header.beacon.slot.toNat < 2 ^ 63)
    (com : SyncCommittee) (branch : Vec Id (committeeBranchLen .electra))
    (hbad : verifyMerkleProof env.H (committeeRoot env.H (members com)) branch.1 6 22 v.header.beacon.stateRoot = false) :
    ∃ s', BeaconNode.run env s
        [.arrived (.bootstrap (headerRoot env.H v.header.beacon))
            (value (.bootstrap ⟨.electra, { v with currentSyncCommittee := com, branch := branch }⟩)) now,
          .keep s.held.length (fun _ => true)] = some s' ∧
      ∀ more s'', Late more → (∀ n, .prune n ∈ more → n ≤ v.header.beacon.slot.toNat + 864000) → BeaconNode.run env s' more = some s'' →
        BeaconNode.get env s'' (.bootstrap (headerRoot env.H v.header.beacon)) =
          some (value (.bootstrap ⟨.electra, { v with currentSyncCommittee := com, branch := branch }⟩)) ∧
        ∀ (σ : Type) (web : Web (Asked σ)) (w : Portal σ) (file : Option Bytes) (a : Asked σ), Finds env w s'' →
          (beaconSync env web (portalRpc w) (headerRoot env.H v.header.beacon) file a).1.1 ≠ none := by
  have hb : Belongs (.bootstrap (headerRoot env.H v.header.beacon))
      (.bootstrap ⟨.electra, { v with currentSyncCommittee := com, branch := branch }⟩) := trivial
  obtain ⟨s', h1, h2⟩ := C93_keeps hl h (.bootstrap (headerRoot env.H v.header.beacon))
    (.bootstrap ⟨.electra, { v with currentSyncCommittee := com, branch := branch }⟩) now hnow hb hok hnew ⟨rfl, hslot⟩
  refine ⟨s', h1, fun more s'' hl' hp hr => ?_⟩
  have hs' : Lives env given tie (es ++ [.arrived (.bootstrap (headerRoot env.H v.header.beacon))
            (value (.bootstrap ⟨.electra, { v with currentSyncCommittee := com, branch := branch }⟩)) now,
          .keep s.held.length (fun _ => true)]) s' := by
    rw [Lives, BeaconNode.run_append, show BeaconNode.run env _ es = some s from h]
    exact h1
  have hlate : Late (es ++ [.arrived (.bootstrap (headerRoot env.H v.header.beacon))
            (value (.bootstrap ⟨.electra, { v with currentSyncCommittee := com, branch := branch }⟩)) now,
          .keep s.held.length (fun _ => true)]) := by
    intro k b n hm
    rcases List.mem_append.mp hm with hm | hm
    · exact hl k b n hm
    · simp only [List.mem_cons, BeaconNode.Ev.arrived.injEq, List.not_mem_nil, or_false, reduceCtorEq] at hm
      rw [hm.2.2]; exact hnow
  have hg := (C98_kept hlate hs' more hl' s'' hr).2 _ _ h2 hp
  refine ⟨hg, fun σ web w file a hw => no_start web w _ file a fun c t => ?_⟩
  have hask := ask_boot hw hg t
  unfold LightNode.sync
  dsimp only
  rw [show (LightLife.mainnetConfig (headerRoot env.H v.header.beacon)).checkpoint = headerRoot env.H v.header.beacon from rfl, hask]
  dsimp only
  split
  · simp
  · next n hn =>
    have hbt : ∀ c', LightClient.bootstrap env (LightLife.mainnetConfig (headerRoot env.H v.header.beacon)) n c
        (bootstrapOf { v with currentSyncCommittee := com, branch := branch }) ≠ .ok c' := by
      intro c' hok
      have := ((C42_bootstrap env _ n c c' _).mp hok).2.2.2.1
      rw [show LightClient.currentCommitteeProofValid env
          (bootstrapOf { v with currentSyncCommittee := com, branch := branch }).header
          (bootstrapOf { v with currentSyncCommittee := com, branch := branch }).committee
          (bootstrapOf { v with currentSyncCommittee := com, branch := branch }).branch =
        verifyMerkleProof env.H (committeeRoot env.H (members com)) branch.1 6 22 v.header.beacon.stateRoot from rfl, hbad] at this
      cases this
    split
    · simp
    · next c' hc' => exact absurd hc' (hbt c')

/-- Two thirds are not asked for by nodes (C55). So one member of the committee can have nodes keep a finality update of a later
slot, instead of the right ones for slots up to that. Light clients are then given this one, and do not move. -/
theorem C98_lone_signer_violated (hl : Late es) (h : Lives env given tie es s) (hnow : 864000 ≤ now) (u : FinalityUpdate .electra)
    (hok : BeaconRules.Acceptable env mainnet now (view s.client) (.finalityUpdate u.finalized.beacon.slot) (.finality ⟨.electra, u⟩))
    (hnew : BeaconNode.get env s (.finalityUpdate u.finalized.beacon.slot) = none) (hfew : ¬ TwoThirds u.aggregate) :
    ∃ s', BeaconNode.run env s
        [.arrived (.finalityUpdate u.finalized.beacon.slot) (value (.finality ⟨.electra, u⟩)) now,
          .keep s.held.length (fun _ => true)] = some s' ∧
      BeaconNode.get env s' (.finalityUpdate 0) = some (value (.finality ⟨.electra, u⟩)) ∧
      (∀ final : FinalityUpdate .electra, final.finalized.beacon.slot ≤ u.finalized.beacon.slot → ∀ now' s'',
        BeaconNode.run env s' [.arrived (.finalityUpdate final.finalized.beacon.slot) (value (.finality ⟨.electra, final⟩)) now',
          .keep s'.held.length (fun _ => true)] = some s'' →
        BeaconNode.get env s'' (.finalityUpdate 0) = some (value (.finality ⟨.electra, u⟩))) ∧
      ∀ root now' c c', LightClient.process env (LightLife.mainnetConfig root) now' c (finalityOf u) = .ok c' →
        c'.store.finalized = c.store.finalized := by
  obtain ⟨s', h1, h2⟩ := C93_keeps hl h (.finalityUpdate u.finalized.beacon.slot) (.finality ⟨.electra, u⟩) now hnow
    trivial hok hnew trivial
  refine ⟨s', h1, C98_finality _ _ _ UInt64.zero_le h2, fun final hle now' s'' hr => ?_, fun root now' c c' hp => ?_⟩
  · have h3 := C98_finality _ _ _ hle h2
    have hask : BeaconStore.shouldWeStore (BeaconNode.codec env.H) s'.store (.finality final.finalized.beacon.slot) = .ok .alreadyStored := by
      rw [C27_offer _ _ _ (fun _ _ hk => by cases hk)]
      exact ⟨_, BeaconNode.get_some h3⟩
    have hput : ∀ bs w, BeaconNode.putIf env.H true s'.store (.finalityUpdate final.finalized.beacon.slot) bs w = s'.store := by
      intro bs w
      simp only [BeaconNode.putIf, if_true, BeaconNode.storeKey, hask]
    have h0 := C98_finality _ _ _ (UInt64.zero_le (a := u.finalized.beacon.slot)) h2
    have hst : s''.store = s'.store := by
      simp only [BeaconNode.run, BeaconNode.step] at hr
      split at hr
      · next t ht =>
        split at ht <;> cases ht
        · simp only [List.getElem?_concat_length, hput] at hr
          cases hr; rfl
        · simp at hr
          rw [← hr]
      · cases hr
    rw [show BeaconNode.get env s'' (.finalityUpdate 0) = BeaconNode.get env s' (.finalityUpdate 0) by simp only [BeaconNode.get, hst]]
    exact h0
  · apply Classical.byContradiction
    intro hne
    have := (C40_finalized_supermajority env _ now' c c' _ hp hne).1
    apply hfew
    rw [TwoThirds, ← count_bits]
    exact this
end

/-! ## A network that meets the hypotheses -/

namespace BeaconFlowExample
open BeaconBridgeExample
open BeaconValidatorExample (exec)

def toy : Env := ⟨L, fun _ => true, fun _ _ _ => true⟩
def all : SyncAggregate := ⟨⟨List.replicate 64 255, List.length_replicate⟩, ⟨List.replicate 96 1, List.length_replicate⟩⟩
def header (slot : UInt64) : Header := ⟨slot, 1, 2, 0, 4⟩
def chain : Chain := ⟨fun _ => True, fun _ => members committee⟩

/-- The bootstrap is of the first epochs of period 1422, with which the Electra fork begins; it is now 200 slots into the next. -/
def slot : Nat := 11657416
def data : Course where
  boot := ⟨⟨header 11649056, exec⟩, committee, hash6⟩
  update _ := ⟨⟨header 11649280, exec⟩, committee, hash6, ⟨header 11649088, exec⟩, hash7, all, 11649281⟩
  final := ⟨⟨header 11657414, exec⟩, ⟨header 11657344, exec⟩, hash7, all, 11657415⟩
  head := ⟨⟨header 11657415, exec⟩, all, 11657416⟩
def trusted : Id := headerRoot L data.boot.header.beacon

theorem majority : TwoThirds all := by
  unfold TwoThirds
  decide +kernel

theorem attests (x : Header) (s : UInt64) (h1 : x.slot < s) (h2 : 364032 * 32 ≤ s.toNat) : Attested toy chain x all s :=
  ⟨h2, majority, h1, fun _ _ => rfl, rfl⟩

theorem proof6 (x : Id) : verifyMerkleProof L x hash6.1 6 22 0 = true ∧ verifyMerkleProof L x hash6.1 6 23 0 = true := ⟨rfl, rfl⟩
theorem proof7 (x : Id) : verifyMerkleProof L x hash7.1 7 41 0 = true := rfl

theorem present : Present toy chain slot data.final data.head where
  final_signed := attests _ _ (by decide) (by decide)
  proof := ⟨by decide, proof7 _⟩
  behind := by decide
  past := by decide
  period := by decide
  head_signed := attests _ _ (by decide) (by decide)
  slot := by decide
  last := .inr (by decide)

theorem sound : BeaconFlow.Sound toy chain trusted slot data where
  root := rfl
  committee := rfl
  proof := (proof6 _).1
  updates p h1 h2 := by
    have h1 : 1422 ≤ p := h1
    have h2 : p < 1423 := h2
    obtain rfl : p = 1422 := by omega
    exact ⟨attests _ _ (by decide) (by decide), by decide, by decide, ⟨by decide, proof7 _⟩, rfl, (proof6 _).2⟩
  present := present
  newer := by decide
  newer_updates p _ _ := ⟨show (11649088 : UInt64) < 11657344 by decide, show (11649280 : UInt64) < 11657415 by decide⟩

/-- A node that has all of it. -/
def node : BeaconNode.State :=
  ⟨⟨[⟨trusted.bytes, value (.bootstrap ⟨.electra, data.boot⟩), 11649056⟩],
    [(1422, (BeaconNode.codec L).encUpdate ⟨.electra, data.update 1422⟩)], none, some ⟨.electra, data.final⟩, some ⟨.electra, data.head⟩⟩,
    none, trusted, []⟩

theorem gives : GivesAll toy node trusted slot data where
  boot := by simp [BeaconNode.get, BeaconNode.storeKey, BeaconStore.get, BeaconStore.lookupBoot, node]
  updates p h1 h2 := by
    have h1 : 1422 ≤ p := h1
    have h2 : p < 1423 := h2
    obtain rfl : p = 1422 := by omega
    have hc := BeaconNode.collect_all (H := L) (st := node.store) [⟨.electra, data.update 1422⟩] 1422 [] (by decide) (by
      intro i u hu
      cases i with
      | zero => cases hu; rfl
      | succ i => cases hu)
    have hp : BeaconStore.collectUpdates (BeaconNode.codec toy.H) node.store [] (BeaconStore.periods (UInt64.ofNat 1422) 1) =
      .ok (some [⟨.electra, data.update 1422⟩]) := hc
    simp only [BeaconNode.get, BeaconNode.storeKey, BeaconStore.get, hp]
    exact congrArg some (BeaconNode.encUpdates_value L ⟨[⟨.electra, data.update 1422⟩], Nat.le_of_ble_eq_true rfl⟩)
  present := ⟨congrArg some (BeaconNode.encFin_value L ⟨.electra, data.final⟩), congrArg some (BeaconNode.encOpt_value L ⟨.electra, data.head⟩)⟩

def world : Portal Unit := ⟨fun key t => (BeaconNode.get toy node key, t), fun t => (1606824023 + 12 * slot + 4, t)⟩

/-- The client starts. -/
example (web : Web (Asked Unit)) : ∃ n s', beaconSync toy web (portalRpc world) trusted none ⟨(), [], []⟩ = ((none, some n, 1), s') ∧
    n.client.store.finalized = header 11657344 ∧ n.client.store.optimistic = header 11657415 := by
  obtain ⟨n, s', h, h1, h2, -⟩ := C98_start_partial web world node data none ⟨(), [], []⟩ (fun _ _ h _ => h)
    (fun _ => ⟨by show 1606824023 ≤ 1606824023 + 12 * slot + 4; omega, show (1606824023 + 12 * slot + 4 - 1606824023) / 12 = slot by decide⟩) sound gives
  exact ⟨n, s', h, h1, h2⟩

/-- One epoch later, there is a block in each slot, and there is the update of the period. -/
def turn : Turn Unit where
  now := 11657448
  world := ⟨fun key t => (BeaconNode.get toy
      ⟨⟨[], [(1423, (BeaconNode.codec L).encUpdate ⟨.electra, ⟨⟨header 11657414, exec⟩, committee, hash6, ⟨header 11657344, exec⟩, hash7, all, 11657415⟩⟩)], none,
        some ⟨.electra, ⟨⟨header 11657446, exec⟩, ⟨header 11657376, exec⟩, hash7, all, 11657447⟩⟩,
        some ⟨.electra, ⟨⟨header 11657447, exec⟩, all, 11657448⟩⟩⟩, none, trusted, []⟩ key, t), fun t => (1606824023 + 12 * 11657448 + 4, t)⟩
  state := ⟨(), [], []⟩
  node := ⟨⟨[], [(1423, (BeaconNode.codec L).encUpdate ⟨.electra, ⟨⟨header 11657414, exec⟩, committee, hash6, ⟨header 11657344, exec⟩, hash7, all, 11657415⟩⟩)], none,
    some ⟨.electra, ⟨⟨header 11657446, exec⟩, ⟨header 11657376, exec⟩, hash7, all, 11657447⟩⟩,
    some ⟨.electra, ⟨⟨header 11657447, exec⟩, all, 11657448⟩⟩⟩, none, trusted, []⟩
  final := ⟨⟨header 11657446, exec⟩, ⟨header 11657376, exec⟩, hash7, all, 11657447⟩
  head := ⟨⟨header 11657447, exec⟩, all, 11657448⟩
  update := ⟨⟨header 11657414, exec⟩, committee, hash6, ⟨header 11657344, exec⟩, hash7, all, 11657415⟩

theorem meets : Meets toy chain (header 11657344) (header 11657415) turn where
  present :=
    { final_signed := attests _ _ (by decide) (by decide), proof := ⟨by decide, proof7 _⟩, behind := by decide, past := by decide,
      period := by decide, head_signed := attests _ _ (by decide) (by decide), slot := by decide, last := .inr (by decide) }
  gives := ⟨congrArg some (BeaconNode.encFin_value L ⟨.electra, turn.final⟩), congrArg some (BeaconNode.encOpt_value L ⟨.electra, turn.head⟩)⟩
  finds := fun _ _ h _ => h
  slot := fun _ => ⟨show 1606824023 ≤ 1606824023 + 12 * 11657448 + 4 by decide, show (1606824023 + 12 * 11657448 + 4 - 1606824023) / 12 = 11657448 by decide⟩
  newer := .inr (by decide)
  newer_head := by decide
  update := ⟨attests _ _ (by decide) (by decide), by decide, by decide, ⟨by decide, proof7 _⟩, rfl, (proof6 _).2⟩
  given := by
    have hc := BeaconNode.collect_all (H := L) (st := turn.node.store) [⟨.electra, turn.update⟩] 1423 [] (by decide) (by
      intro i u hu
      cases i with
      | zero => cases hu; rfl
      | succ i => cases hu)
    have hp : BeaconStore.collectUpdates (BeaconNode.codec toy.H) turn.node.store []
        (BeaconStore.periods (UInt64.ofNat (periodOf turn.final.finalized.beacon)) 1) = .ok (some [⟨.electra, turn.update⟩]) := hc
    simp only [BeaconNode.get, BeaconNode.storeKey, BeaconStore.get, hp]
    exact congrArg some (BeaconNode.encUpdates_value L ⟨[⟨.electra, turn.update⟩], Nat.le_of_ble_eq_true rfl⟩)
  past := by decide
  older := by decide
  older_head := by decide

/-- So after the start and this turn the client is at the newest headers, and knows the next committee. -/
example (web : Web (Asked Unit)) : ∃ n s', beaconSync toy web (portalRpc world) trusted none ⟨(), [], []⟩ = ((none, some n, 1), s') ∧
    (after toy trusted n.client [turn]).store.finalized = header 11657376 ∧
    (after toy trusted n.client [turn]).store.optimistic = header 11657447 ∧
    (after toy trusted n.client [turn]).store.next = some (members committee) := by
  obtain ⟨n, s', h, h1, h2, h3⟩ := C98_start_partial web world node data none ⟨(), [], []⟩ (fun _ _ h _ => h)
    (fun _ => ⟨by show 1606824023 ≤ 1606824023 + 12 * slot + 4; omega, show (1606824023 + 12 * slot + 4 - 1606824023) / 12 = slot by decide⟩) sound gives
  have h1 : n.client.store.finalized = header 11657344 := h1
  have h2 : n.client.store.optimistic = header 11657415 := h2
  have hm : Meets toy chain n.client.store.finalized n.client.store.optimistic turn := by rw [h1, h2]; exact meets
  have ht : Tracks chain turn.now n.client := ⟨h3.current, h3.next, .inl (by rw [h1]; rfl), h3.counts⟩
  obtain ⟨c', t', e, f, o, k⟩ := C98_turn (root := trusted) n.client turn hm ht
  refine ⟨n, s', h, ?_⟩
  simp only [after, e]
  exact ⟨f, o, k.next⟩

/-- What a bridge announces comes to a node that has just started, and the node gives it. -/
example : ∃ a ∈ (BeaconBridge.exec L Bridge.start two).log, a.key = .finalityUpdate 1000000 ∧
    ∃ s', BeaconNode.run toy (BeaconNode.fresh none 0 BeaconStore.init)
        [.arrived a.key a.value.encode 1000070, .keep 0 (fun _ => true)] = some s' ∧
      BeaconNode.get toy s' (.finalityUpdate 1000000) = some a.value.encode := by
  have hs : finalSlots (BeaconBridge.exec L Bridge.start two).log = [1000000, 1000032] := by decide +kernel
  have hm : (1000000 : UInt64) ∈ finalSlots (BeaconBridge.exec L Bridge.start two).log := by rw [hs]; exact List.mem_cons_self ..
  obtain ⟨a, ha, hk⟩ := List.mem_filterMap.mp hm
  have hk : a.key = .finalityUpdate 1000000 := by
    split at hk
    · next slot e => rw [e, Option.some.inj hk]
    · cases hk
  have hg := (C77_genuine L two a ha).1
  rw [hk] at hg
  obtain ⟨w, -, u, -, -, hv⟩ := hg
  have := C98_fed (env := toy) (given := none) (tie := 0) (es := []) (s := BeaconNode.fresh none 0 BeaconStore.init) (now := 1000070)
    (by intro k b n h; cases h) rfl (by decide) two a ha (by rw [hv]; exact nofun) (by rw [hk]; rfl) (by rw [hk]; trivial)
  refine ⟨a, ha, hk, ?_⟩
  rw [hk] at this ⊢
  exact this

/-- A bootstrap with another branch does not fit, and a node without a light client accepts it. -/
example : verifyMerkleProof toy.H (committeeRoot toy.H (members committee)) [0, 0, 0, 0, 1, 0] 6 22 data.boot.header.beacon.stateRoot = false ∧
    BeaconRules.Acceptable toy mainnet slot (view none) (.bootstrap trusted) (.bootstrap ⟨.electra, data.boot⟩) :=
  ⟨rfl, by decide, nofun⟩

/-- A finality update that one member signed is accepted by a node whose light client has started. -/
def lone : FinalityUpdate .electra :=
  ⟨⟨header 11657415, exec⟩, ⟨header 11657414, exec⟩, hash7, BeaconValidatorExample.agg, 11657416⟩
def started : Client := ⟨⟨header 11657344, members committee, none, header 11657415, 0, 0⟩, none, none, none, none⟩

example : ¬ TwoThirds lone.aggregate ∧
    BeaconRules.Acceptable toy mainnet slot (view (some started)) (.finalityUpdate lone.finalized.beacon.slot) (.finality ⟨.electra, lone⟩) := by
  refine ⟨by unfold TwoThirds; decide +kernel, lone, rfl, UInt64.le_refl _, ?_⟩
  rintro _ ⟨⟩
  exact ⟨⟨⟨0, by decide, by decide⟩, by decide, by decide, members committee, .inl ⟨by decide, rfl⟩, fun _ _ => rfl, rfl⟩,
    ⟨by decide, proof7 _⟩, by decide⟩

end BeaconFlowExample

end Verif.Props
