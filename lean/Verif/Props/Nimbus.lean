import Verif.Lemmas.Nimbus
import Verif.Props.LcJson
import Verif.Props.LightNode

/-! # C109: the stand-alone light client over HTTP -/

namespace Verif.Props
open Verif.E2store (Res)
open Verif.JsonRpc (Json)
open Verif.LcJson (Lib)
open Verif.LightClient (Env Client)
open Verif.LightNode (Rpc Web Fail Slot Node Builder bootstrapOf updateOf finalityOf optimisticOf)
open Verif.Nimbus (Http Talk nimbusRpc webOf)
open LcJsonSpec NimbusSpec LightLife
open scoped Verif.Provider

variable {σ : Type}

/-! ## One request -/

/-- Each request asks one URL, and has a value exactly when the answer is a document that stands for it: the data in an object
`data`, or an array of such objects. The chain has to be given as a text. -/
theorem C109_answers (lib : Lib) (w : Http σ) (rpc : List Char) (s : Talk σ) :
    (∀ n, ((nimbusRpc lib w rpc).chainId s).1 = some n ↔
      n < 2 ^ 64 ∧ ∃ j, (w.get (chainAt rpc) s.world).1 = some j ∧ DataJson ChainJson j n) ∧
    (∀ root b, ((nimbusRpc lib w rpc).bootstrap root s).1 = .ok b ↔
      ∃ j x, (w.get (bootstrapAt rpc root) s.world).1 = some j ∧ DataJson (BootstrapJson lib .electra) j x ∧ b = bootstrapOf x) ∧
    (∀ p n ms, ((nimbusRpc lib w rpc).updates p n s).1 = .ok ms ↔
      ∃ j xs, (w.get (updatesAt rpc p.toNat (min n.toNat 128)) s.world).1 = some j ∧
        IsArray (DataJson (UpdateJson lib .electra)) j xs ∧ ms = xs.map updateOf) ∧
    (∀ m, ((nimbusRpc lib w rpc).finality s).1 = .ok m ↔
      ∃ j x, (w.get (finalityAt rpc) s.world).1 = some j ∧ DataJson (FinalityJson lib .electra) j x ∧ m = finalityOf x) ∧
    (∀ m, ((nimbusRpc lib w rpc).optimistic s).1 = .ok m ↔
      ∃ j x, (w.get (optimisticAt rpc) s.world).1 = some j ∧ DataJson (OptimisticJson lib .electra) j x ∧ m = optimisticOf x) := by
  refine ⟨fun n => ?_, fun root b => ?_, fun p n ms => ?_, fun m => ?_, fun m => ?_⟩
  · have hg := Nimbus.good_inData LcJson.hered_false (Nimbus.good_spec LcJson.hered_false)
    have hdata : ∀ j (x : UInt64), DataJson (fun j n => ChainJson j n.toNat) j x ↔ DataJson ChainJson j x.toNat := fun _ _ => Iff.rfl
    simp only [nimbusRpc, Http.ask, Nimbus.specUrl_eq]
    constructor
    · intro h
      split at h
      · next x hx =>
        obtain ⟨j, h1, h2⟩ := Nimbus.outcome_ok.mp hx
        cases h
        exact ⟨x.toNat_lt, j, h1, (hg.exact _ _).mp h2⟩
      · cases h
    · rintro ⟨hn, j, h1, h2⟩
      have e : (UInt64.ofNat n).toNat = n := by rw [UInt64.toNat_ofNat', Nat.mod_eq_of_lt hn]
      have : Nimbus.outcome (Nimbus.inData Nimbus.spec).de (w.get (chainAt rpc) s.world).1 = .ok (UInt64.ofNat n) :=
        Nimbus.outcome_ok.mpr ⟨j, h1, (hg.exact _ _).mpr ((hdata _ _).mpr (by rw [e]; exact h2))⟩
      simp only [this, e]
  · simp only [nimbusRpc, Http.ask, Nimbus.bootstrapUrl_eq, Nimbus.except_map_ok, Nimbus.outcome_ok,
      (Nimbus.good_inData LcJson.hered_false (LcJson.good_bootstrap LcJson.hered_false lib .electra)).exact]
    grind
  · simp only [nimbusRpc, Http.ask, Nimbus.updatesUrl_eq, Nimbus.except_map_ok, Nimbus.outcome_ok,
      Nimbus.allData_ok LcJson.hered_96 (LcJson.good_update lib .electra)]
    grind
  · simp only [nimbusRpc, Http.ask, Nimbus.finalityUrl_eq, Nimbus.except_map_ok, Nimbus.outcome_ok,
      (Nimbus.good_inData LcJson.hered_96 (LcJson.good_finality lib .electra)).exact]
    grind
  · simp only [nimbusRpc, Http.ask, Nimbus.optimisticUrl_eq, Nimbus.except_map_ok, Nimbus.outcome_ok,
      (Nimbus.good_inData LcJson.hered_96 (LcJson.good_optimistic lib .electra)).exact]
    grind

/-- The URLs of the requests. Reading the clock asks nothing. -/
theorem C109_urls (lib : Lib) (w : Http σ) (rpc : List Char) (s : Talk σ) :
    ((nimbusRpc lib w rpc).chainId s).2.urls = s.urls ++ [chainAt rpc] ∧
    (∀ root, ((nimbusRpc lib w rpc).bootstrap root s).2.urls = s.urls ++ [bootstrapAt rpc root]) ∧
    (∀ p n, ((nimbusRpc lib w rpc).updates p n s).2.urls = s.urls ++ [updatesAt rpc p.toNat (min n.toNat 128)]) ∧
    ((nimbusRpc lib w rpc).finality s).2.urls = s.urls ++ [finalityAt rpc] ∧
    ((nimbusRpc lib w rpc).optimistic s).2.urls = s.urls ++ [optimisticAt rpc] ∧
    ((nimbusRpc lib w rpc).clock s).2.urls = s.urls := by
  refine ⟨?_, fun root => ?_, fun p n => Nimbus.updates_urls p n s, rfl, rfl, rfl⟩
  · simp only [nimbusRpc]; split <;> rfl
  · show s.urls ++ [Nimbus.bootstrapUrl rpc root] = _
    rw [Nimbus.bootstrapUrl_eq]

/-- A checkpoint service gives slots exactly when its answer is a document that stands for them. -/
theorem C109_slots (lib : Lib) (w : Http σ) (rpc url : List Char) (s : Talk σ) (xs : List Slot) :
    ((webOf lib w rpc).slots url s).1 = some xs ↔ ∃ j, (w.get url s.world).1 = some j ∧ SlotsJson lib j xs := by
  simp only [webOf, Http.ask]
  have : (∃ j, (w.get url s.world).1 = some j ∧ SlotsJson lib j xs) ↔
      Nimbus.outcome (Nimbus.slots lib) (w.get url s.world).1 = .ok xs := by
    simp only [Nimbus.outcome_ok, Nimbus.slots_ok]
  rw [this]
  split
  · next l h => rw [h]; simp
  · next e h => rw [h]; simp

/-! ## The program -/

/-- A start asks a part from the front of its plan: the chain, the bootstrap of the trusted root, the updates from the period of the
bootstrap on, the finality update and the optimistic update, all of the one server. When it succeeds it has asked for all of
them. -/
theorem C109_requests (env : Env) (lib : Lib) (w : Http σ) (file : Option Bytes) (s : σ) :
    ∃ first, (Nimbus.main env lib w file s).2.urls <+: startPlan first ∧
      ((Nimbus.main env lib w file s).1.isSome = true → (Nimbus.main env lib w file s).2.urls = startPlan first ∧
        ∃ s1 j x, (w.get (bootstrapAt server trusted) s1).1 = some j ∧ DataJson (BootstrapJson lib .electra) j x ∧
          first = x.header.beacon.slot.toNat / 8192) := by
  have hmain : (Nimbus.main env lib w file s).2 =
      ((Nimbus.fresh lib w).start env (webOf lib w server) ⟨s, []⟩).2 := by
    simp only [Nimbus.main, Nimbus.launch_eq]
    split <;> rfl
  have hsome : (Nimbus.main env lib w file s).1.isSome = true →
      ((Nimbus.fresh lib w).start env (webOf lib w server) ⟨s, []⟩).1.1 = none := by
    simp only [Nimbus.main, Nimbus.launch_eq]
    split
    · next h => intro _; exact congrArg (fun y => y.1) h
    · intro h; cases h
  rw [hmain]
  rw [Nimbus.start_eq] at hsome ⊢
  simp only at hsome ⊢
  split
  · next hs =>
    rw [if_pos hs] at hsome
    exact ⟨0, List.nil_prefix, fun h => by cases hsome h⟩
  · next hs =>
    rw [if_neg hs] at hsome
    have hchain := (C109_urls lib w server ⟨(w.serve s).2, []⟩).1
    rcases (Nimbus.fresh lib w).sync_eq (env := env) ⟨(w.serve s).2, []⟩ with h1 | ⟨x, hx, h1⟩
    · rw [h1] at hsome ⊢
      refine ⟨0, ?_, fun h => by cases hsome h⟩
      show ((nimbusRpc lib w server).chainId ⟨(w.serve s).2, []⟩).2.urls <+: _
      rw [hchain]
      exact ⟨_, rfl⟩
    · rw [h1] at hsome ⊢
      have hx' : LightNode.sync env (mainnetConfig trusted) 1606824023 (nimbusRpc lib w server) LightNode.emptyClient
        ((nimbusRpc lib w server).chainId ⟨(w.serve s).2, []⟩).2 = x := hx
      obtain ⟨us, first, g1, ⟨r, g2⟩, g3⟩ := Nimbus.sync_urls (env := env) (cfg := mainnetConfig trusted) (lib := lib) (w := w)
        (rpc := server) 1606824023 LightNode.emptyClient ((nimbusRpc lib w server).chainId ⟨(w.serve s).2, []⟩).2
      rw [hx', hchain] at g1
      rw [hx'] at g3
      refine ⟨first, ?_, fun h => ?_⟩
      · show x.2.urls <+: _
        rw [g1]
        exact ⟨r, congrArg (chainAt server :: ·) g2⟩
      · have hn : x.1.2 = none := by
          have := hsome h
          simp only at this
          revert this
          cases x.1.2 <;> simp
        obtain ⟨e1, b, hb, e2⟩ := g3 hn
        obtain ⟨j, y, h2, h3, rfl⟩ := ((C109_answers lib w server _).2.1 trusted b).mp hb
        refine ⟨?_, _, j, y, h2, h3, e2⟩
        show x.2.urls = _
        rw [g1, e1]
        rfl

/-- A turn of the thread asks for the finality update, the optimistic update, and, when the next sync committee is not known after
these, for the update of the period of the finalized header. -/
theorem C109_turn_requests (env : Env) (lib : Lib) (w : Http σ) (rpc : List Char) (n : Node (Talk σ))
    (hn : n.rpc = nimbusRpc lib w rpc) (s : Talk σ) :
    ∃ us period, (n.turn env s).2.urls = s.urls ++ us ∧ us ≠ [] ∧
      us <+: [finalityAt rpc, optimisticAt rpc, updatesAt rpc period 1] ∧
      (us.length = 3 → ∃ c : Client, period = c.store.finalized.slot.toNat / 8192 ∧ c.store.next = none ∧
        (LightNode.latest env (n.settings.config n.checkpoint) n.rpc n.client s).1.1 = c) ∧
      ((LightNode.advance env (n.settings.config n.checkpoint) n.rpc n.client s).1.2 = none →
        2 ≤ us.length ∧ ((n.turn env s).1.1.client.store.next = none → us.length = 3)) := by
  rw [hn]
  obtain ⟨us, p, h1, h2, h3, h4, h5⟩ := Nimbus.advance_urls (env := env) (cfg := n.settings.config n.checkpoint) (lib := lib) (w := w)
    (rpc := rpc) n.client s
  have e1 : (n.turn env s).2 = (LightNode.advance env (n.settings.config n.checkpoint) (nimbusRpc lib w rpc) n.client s).2 := by
    rw [← hn]; rfl
  have e2 : (n.turn env s).1.1.client =
      (LightNode.advance env (n.settings.config n.checkpoint) (nimbusRpc lib w rpc) n.client s).1.1 := by
    rw [← hn]; rfl
  rw [e1, e2]
  exact ⟨us, p, h1, h2, h3, fun h => ⟨_, (h5 h).1, (h5 h).2, rfl⟩, h4⟩

/-- What the client believes goes back to the trusted root by verified messages alone, whatever the servers answer, and whatever the
data directory has: after a start that succeeds and after any number of turns of its one thread. -/
theorem C109_anchored (env : Env) (lib : Lib) (w : Http σ) (file : Option Bytes) (s : σ) (n : Node (Talk σ)) (s' : Talk σ)
    (h : Nimbus.main env lib w file s = (some n, s')) (k : Nat) (t : Talk σ) :
    (n.turns env k t).1.1.threads = 1 ∧ (n.turns env k t).1.1.checkpoint = trusted ∧
    Anchored env (mainnetConfig trusted) (n.turns env k t).1.1.client := by
  obtain ⟨f1, f2, f3, f4⟩ := Nimbus.main_fields h
  obtain ⟨-, m, hm, rfl⟩ := Nimbus.main_some h
  have ha : Anchored env (mainnetConfig trusted) m.client := by
    refine Nimbus.sync_keeps hm _ (LightNode.anchored_keeps env _ _) ?_
    intro s0 b now c0 _ hb
    obtain ⟨-, h2, h3, h4⟩ := LightNode.bootstrap_ok _ _ _ _ _ _ hb
    refine ⟨b, LightNode.emptyClient, h2, h3, ?_⟩
    rw [h4]
    exact .refl
  obtain ⟨-, -, t3, t4⟩ := LightNode.turns_fields (env := env) m.spawn k t
  refine ⟨t4.trans f4, t3.trans f3, ?_⟩
  have hcfg : m.spawn.settings.config m.spawn.checkpoint = mainnetConfig trusted := by rw [f1, f3]; rfl
  exact Node.turns_keeps (P := fun _ c => Anchored env (mainnetConfig trusted) c)
    (by rw [hcfg]; exact LightNode.anchored_keeps env _ _) k t ha

/-- With honest committees it is on the chain of the trusted root, and so is the checkpoint that it saves. -/
theorem C109_follows (env : Env) (lib : Lib) (w : Http σ) (file : Option Bytes) (s : σ) (n : Node (Talk σ)) (s' : Talk σ)
    (ch : Chain) (ht : Trusted env ch (nimbusRpc lib w server) trusted)
    (h : Nimbus.main env lib w file s = (some n, s')) (k : Nat) (t : Talk σ) :
    Follows ch (n.turns env k t).1.1.client ∧ GoodCheckpoint env ch (n.turns env k t).1.1.client := by
  obtain ⟨f1, f2, f3, f4⟩ := Nimbus.main_fields h
  obtain ⟨-, m, hm, rfl⟩ := Nimbus.main_some h
  have ha : Follows ch m.client ∧ GoodCheckpoint env ch m.client := by
    refine Nimbus.sync_keeps hm (fun c => Follows ch c ∧ GoodCheckpoint env ch c) (LightNode.follows_keeps ht) ?_
    intro s0 b now c0 hb hc
    exact LightNode.bootstrap_follows ht s0 b now _ c0 hb hc (.inl rfl)
  have hcfg : m.spawn.settings.config m.spawn.checkpoint = mainnetConfig trusted := by rw [f1, f3]; rfl
  exact Node.turns_keeps (P := fun _ c => Follows ch c ∧ GoodCheckpoint env ch c)
    (by rw [hcfg, f2]; exact LightNode.follows_keeps ht) k t ha

/-- Its thread lives on as long as no answer has a signature of other than 96 bytes, with honest committees of proper keys and a
clock after genesis. Missing: such an answer ends it, see `C109_dies_violated`. -/
theorem C109_alive_partial (env : Env) (lib : Lib) (w : Http σ) (file : Option Bytes) (s : σ) (n : Node (Talk σ)) (s' : Talk σ)
    (ch : Chain) (ht : Trusted env ch (nimbusRpc lib w server) trusted)
    (hk : ∀ p, ∀ k ∈ (ch.committee p).pubkeys, env.keyOk k = true) (hc : ∀ x, 1606824023 ≤ (w.clock x).1)
    (hs : ∀ url x j, (w.get url x).1 = some j → ¬ OtherThan96 j)
    (h : Nimbus.main env lib w file s = (some n, s')) (k : Nat) (t : Talk σ) : (n.turns env k t).1.2 = true := by
  obtain ⟨f1, f2, f3, f4⟩ := Nimbus.main_fields h
  have hf := C109_follows env lib w file s n s' ch ht h 0 t
  have hu : Unfailing (nimbusRpc lib w server) := by
    refine ⟨fun p c s h => ?_, fun s h => ?_, fun s h => ?_, fun s => hc _⟩
    · obtain ⟨j, h1, h2⟩ := Nimbus.outcome_abort.mp (Nimbus.except_map_error.mp h)
      exact hs _ _ _ h1 (Nimbus.allData_panic LcJson.hered_96 (LcJson.good_update lib .electra) h2)
    · obtain ⟨j, h1, h2⟩ := Nimbus.outcome_abort.mp (Nimbus.except_map_error.mp h)
      exact hs _ _ _ h1 ((Nimbus.good_inData LcJson.hered_96 (LcJson.good_finality lib .electra)).panics _ h2)
    · obtain ⟨j, h1, h2⟩ := Nimbus.outcome_abort.mp (Nimbus.except_map_error.mp h)
      exact hs _ _ _ h1 ((Nimbus.good_inData LcJson.hered_96 (LcJson.good_optimistic lib .electra)).panics _ h2)
  exact LightNode.turns_alive n (by rw [f2]; exact ht) (by rw [f2]; exact hu) hk (by rw [f1, f3]; rfl) k t hf

/-- No document as it is written for an update has such a signature: only a server that sends something else can end the thread. -/
theorem C109_written_alive (lib : Lib) : (∀ x, ¬ OtherThan96 ((LcJson.update lib .electra).ser x)) ∧
    (∀ x, ¬ OtherThan96 ((LcJson.finality lib .electra).ser x)) ∧ (∀ x, ¬ OtherThan96 ((LcJson.optimistic lib .electra).ser x)) ∧
    ∀ x, ¬ OtherThan96 ((LcJson.bootstrap lib .electra).ser x) :=
  ⟨Nimbus.clean_update lib, Nimbus.clean_finality lib, Nimbus.clean_optimistic lib, Nimbus.clean_bootstrap lib⟩

/-- **Violation.** An answer with a signature of another number of bytes, and otherwise right up to it, ends the thread for good: no
turn is taken afterwards. -/
theorem C109_dies_violated (env : Env) (lib : Lib) (w : Http σ) (rpc : List Char) (n : Node (Talk σ))
    (hn : n.rpc = nimbusRpc lib w rpc) (s : Talk σ) (x : BeaconValue.FinalityUpdate .electra)
    (header finalized branch bits sig slot : Json) (bs : Bytes)
    (h1 : LcHeaderJson lib .electra header x.attested) (h2 : LcHeaderJson lib .electra finalized x.finalized)
    (h3 : IsArray (IsWord lib) branch x.finalityBranch.1) (h4 : IsHex bits x.aggregate.bits.1) (hs : IsAnyHex sig bs)
    (hl : bs.length ≠ 96)
    (ha : (w.get (finalityAt rpc) s.world).1 = some (.obj [(chars% "data", .obj [(chars% "attested_header", header),
      (chars% "finalized_header", finalized), (chars% "finality_branch", branch),
      (chars% "sync_aggregate", .obj [(chars% "sync_committee_bits", bits), (chars% "sync_committee_signature", sig)]),
      (chars% "signature_slot", slot)])])) :
    (n.turn env s).1.2 = false ∧ (n.turn env s).2.urls = s.urls ++ [finalityAt rpc] ∧
    ∀ k, n.turns env (k + 1) s = n.turn env s := by
  have hsig : LcJson.signature.de sig = .panic := by
    obtain ⟨c, ds, hc, hd, rfl⟩ := hs
    have := (LcJson.anyHex_iff ('0' :: c :: ds) bs).mpr ⟨c, ds, hc, hd, rfl⟩
    simp only [LcJson.signature, this, LcJson.ofExcept, Res.bind]
    rw [dif_neg hl]
  have hagg : LcJson.syncAggregate.de (.obj [(chars% "sync_committee_bits", bits), (chars% "sync_committee_signature", sig)])
      = .panic := by
    have e : LcJson.syncAggregate.de (.obj [(chars% "sync_committee_bits", bits), (chars% "sync_committee_signature", sig)]) =
        ((((LcJson.hexFixedVec 64).de bits).bind fun a => ((LcJson.signature.de sig).bind fun b =>
          (Res.ok ()).map fun c => (b, c)).map fun b => (a, b)).map fun (a, b, _) => ⟨a, b⟩) := rfl
    rw [e, ((LcJson.good_hexFixedVec (B := fun _ => False) 64).exact _ _).mpr h4, hsig]
    rfl
  have hd : (Nimbus.inData (LcJson.finality lib .electra)).de (.obj [(chars% "data", .obj [(chars% "attested_header", header),
      (chars% "finalized_header", finalized), (chars% "finality_branch", branch),
      (chars% "sync_aggregate", .obj [(chars% "sync_committee_bits", bits), (chars% "sync_committee_signature", sig)]),
      (chars% "signature_slot", slot)])]) = .panic := by
    have e : (Nimbus.inData (LcJson.finality lib .electra)).de (.obj [(chars% "data", .obj [(chars% "attested_header", header),
        (chars% "finalized_header", finalized), (chars% "finality_branch", branch),
        (chars% "sync_aggregate", .obj [(chars% "sync_committee_bits", bits), (chars% "sync_committee_signature", sig)]),
        (chars% "signature_slot", slot)])]) =
        ((((((LcJson.lcHeader lib .electra).de header).bind fun a => ((((LcJson.lcHeader lib .electra).de finalized).bind fun d =>
          (((LcJson.vector (LcJson.word lib) (BeaconValue.finalityBranchLen .electra)).de branch).bind fun e =>
          ((LcJson.syncAggregate.de (.obj [(chars% "sync_committee_bits", bits), (chars% "sync_committee_signature", sig)])).bind
            fun g => (((LcJson.u64 lib).de slot).bind fun h => (Res.ok ()).map fun i => (h, i)).map fun i => (g, i)).map
            fun i => (e, i)).map fun i => (d, i))).map fun i => (a, i)).map
          fun (a, d, e, g, h, _) => (⟨a, d, e, g, h⟩ : BeaconValue.FinalityUpdate .electra)).bind fun a =>
            (Res.ok ()).map fun b => (a, b)).map fun y => y.1) := rfl
    rw [e, ((LcJson.good_lcHeader LcJson.hered_false lib .electra).exact _ _).mpr h1,
      ((LcJson.good_lcHeader LcJson.hered_false lib .electra).exact _ _).mpr h2,
      ((LcJson.good_vector LcJson.hered_false (LcJson.good_word lib) _).exact _ _).mpr h3, hagg]
    rfl
  have hf : ((nimbusRpc lib w rpc).finality s).1 = .error .abort := by
    show (Nimbus.outcome _ (w.get (Nimbus.finalityUrl rpc) s.world).1).map _ = _
    rw [Nimbus.finalityUrl_eq, ha]
    simp only [Nimbus.outcome, hd]
    rfl
  have hl : LightNode.latestFinality env (n.settings.config n.checkpoint) n.rpc n.client s =
      ((n.client, some .abort), ((nimbusRpc lib w rpc).finality s).2) := by
    rw [hn]
    simp only [LightNode.latestFinality, hf]
  have hadv : LightNode.advance env (n.settings.config n.checkpoint) n.rpc n.client s =
      ((n.client, some .abort), ((nimbusRpc lib w rpc).finality s).2) := by
    simp only [LightNode.advance, LightNode.latest, hl]
  have ht : n.turn env s = ((n, false), ((nimbusRpc lib w rpc).finality s).2) := by
    simp only [Node.turn, hadv]
    rfl
  refine ⟨by rw [ht], by rw [ht]; rfl, fun k => ?_⟩
  simp only [Node.turns, ht]
  rfl

/-- **Violation.** The program is configured with a fallback service and with the services of the list, but in no run is any of them
asked, however the start fails: only the one server is. -/
theorem C109_fallback_violated (env : Env) (lib : Lib) (w : Http σ) (file : Option Bytes) (s : σ) :
    Nimbus.builder.fallback = some "https://sync-mainnet.beaconcha.in".toList ∧ Nimbus.builder.loadExternal = true ∧
    ∀ url ∈ (Nimbus.main env lib w file s).2.urls, server <+: url ∧
      url ≠ "https://sync-mainnet.beaconcha.in/checkpointz/v1/beacon/slots".toList ∧ url ≠ Nimbus.listUrl := by
  refine ⟨rfl, rfl, fun url hu => ?_⟩
  obtain ⟨first, h1, -⟩ := C109_requests env lib w file s
  have hm := h1.subset hu
  have hp : server <+: url := by
    simp only [startPlan, List.mem_cons, List.not_mem_nil, or_false] at hm
    rcases hm with rfl | rfl | rfl | rfl | rfl
    · exact ⟨_, rfl⟩
    · exact ⟨_, by rw [bootstrapAt, List.append_assoc]⟩
    · exact ⟨_, by simp only [updatesAt, List.append_assoc]; rfl⟩
    · exact ⟨_, rfl⟩
    · exact ⟨_, rfl⟩
  refine ⟨hp, ?_, ?_⟩
  · rintro rfl
    exact absurd hp (by decide +kernel)
  · rintro rfl
    exact absurd hp (by decide +kernel)

/-! ## Examples -/

namespace NimbusExamples

/-- The hash of everything is the trusted root; all signatures are valid. -/
def env : Env := ⟨fun _ _ => trusted, fun _ => true, fun _ _ _ => true⟩

def strict : Lib := ⟨fun _ => none, fun _ _ => none, fun _ => none⟩
def header (slot : UInt64) : LightClient.Header := ⟨slot, 0, 0, trusted, 0⟩
def boot : BeaconValue.Bootstrap .electra :=
  ⟨⟨header 40960, LightLifeEx.exec⟩, LightLifeEx.keys, ⟨List.replicate 6 0, List.length_replicate⟩⟩
def newest : BeaconValue.OptimisticUpdate .electra := ⟨⟨header 41059, LightLifeEx.exec⟩, LightLifeEx.aggregate, 41060⟩

def doc (j : Json) : Json := .obj [(chars% "version", .str (chars% "electra")), (chars% "data", j)]
def chainDoc : Json := doc (.obj [(chars% "SECONDS_PER_SLOT", .str (chars% "12")), (chars% "DEPOSIT_NETWORK_ID", .str (chars% "1"))])

/-- A server with a bootstrap and an optimistic update, and neither updates nor a finality update. -/
def answer (url : List Char) : Option Json :=
  if url = chainAt server then some chainDoc
  else if url = bootstrapAt server trusted then some (doc ((LcJson.bootstrap strict .electra).ser boot))
  else if url = updatesAt server 5 128 then some (.arr [])
  else if url = optimisticAt server then some (doc ((LcJson.optimistic strict .electra).ser newest))
  else none

def http : Http Unit where
  get url s := (answer url, s)
  list s := (none, s)
  clock s := (1606824023 + 12 * 41060, s)
  serve s := (true, s)
  order l := l
  sleep _ s := s

theorem doc_ok {α} {t : LcJson.JTy α} {j : Json} {x : α} (h : t.de j = .ok x) : (Nimbus.inData t).de (doc j) = .ok x := by
  have e : (Nimbus.inData t).de (doc j) = (((t.de j).bind fun a => (Res.ok ()).map fun b => (a, b)).map fun y => y.1) := rfl
  rw [e, h]; rfl

theorem chain_read : (Nimbus.inData Nimbus.spec).de chainDoc = .ok 1 := doc_ok rfl
theorem boot_read : (Nimbus.inData (LcJson.bootstrap strict .electra)).de (doc ((LcJson.bootstrap strict .electra).ser boot)) = .ok boot :=
  doc_ok (((LcJson.good_bootstrap LcJson.hered_false strict .electra).exact _ _).mpr
    ((LcJson.good_bootstrap LcJson.hered_false strict .electra).writes boot))
theorem newest_read : (Nimbus.inData (LcJson.optimistic strict .electra)).de (doc ((LcJson.optimistic strict .electra).ser newest)) = .ok newest :=
  doc_ok (((LcJson.good_optimistic strict .electra).exact _ _).mpr ((LcJson.good_optimistic strict .electra).writes newest))

def note (url : List Char) (s : Talk Unit) : Talk Unit := ⟨(), s.urls ++ [url]⟩

theorem http_chain (s : Talk Unit) : (nimbusRpc strict http server).chainId s = (some 1, note (chainAt server) s) := by
  have e : (http.ask (Nimbus.specUrl server) s) = (some chainDoc, note (chainAt server) s) := by
    simp only [Http.ask, http, Nimbus.specUrl_eq, answer, if_true]
    rfl
  simp only [nimbusRpc, e, Nimbus.outcome, chain_read]
  rfl

theorem http_boot (s : Talk Unit) : (nimbusRpc strict http server).bootstrap trusted s =
    (.ok (bootstrapOf boot), note (bootstrapAt server trusted) s) := by
  have e : (http.ask (Nimbus.bootstrapUrl server trusted) s) =
      (some (doc ((LcJson.bootstrap strict .electra).ser boot)), note (bootstrapAt server trusted) s) := by
    have h : bootstrapAt server trusted ≠ chainAt server := by decide +kernel
    simp only [Http.ask, http, Nimbus.bootstrapUrl_eq, answer, if_neg h, if_true]
    rfl
  simp only [nimbusRpc, e, Nimbus.outcome, boot_read]
  rfl

theorem http_updates (s : Talk Unit) : (nimbusRpc strict http server).updates 5 128 s =
    (.ok [], note (updatesAt server 5 128) s) := by
  have e : (http.ask (Nimbus.updatesUrl server 5 128) s) = (some (.arr []), note (updatesAt server 5 128) s) := by
    have h : updatesAt server 5 128 ≠ chainAt server := by decide +kernel
    have h' : updatesAt server 5 128 ≠ bootstrapAt server trusted := by decide +kernel
    have hu : Nimbus.updatesUrl server 5 128 = updatesAt server 5 128 := Nimbus.updatesUrl_eq _ _ _
    simp only [Http.ask, http, hu, answer, if_neg h, if_neg h', if_true]
    rfl
  simp only [nimbusRpc, e, Nimbus.outcome]
  rfl

theorem http_finality (s : Talk Unit) : (nimbusRpc strict http server).finality s = (.error .other, note (finalityAt server) s) := by
  have e : (http.ask (Nimbus.finalityUrl server) s) = (none, note (finalityAt server) s) := by
    have h : answer (finalityAt server) = none := by
      simp only [answer]
      rw [if_neg (by decide +kernel), if_neg (by decide +kernel), if_neg (by decide +kernel), if_neg (by decide +kernel)]
    simp only [Http.ask, http, Nimbus.finalityUrl_eq, h]
    rfl
  simp only [nimbusRpc, e, Nimbus.outcome]
  rfl

theorem http_optimistic (s : Talk Unit) : (nimbusRpc strict http server).optimistic s =
    (.ok (optimisticOf newest), note (optimisticAt server) s) := by
  have e : (http.ask (Nimbus.optimisticUrl server) s) =
      (some (doc ((LcJson.optimistic strict .electra).ser newest)), note (optimisticAt server) s) := by
    have h : answer (optimisticAt server) = some (doc ((LcJson.optimistic strict .electra).ser newest)) := by
      simp only [answer]
      rw [if_neg (by decide +kernel), if_neg (by decide +kernel), if_neg (by decide +kernel), if_pos trivial]
    simp only [Http.ask, http, Nimbus.optimisticUrl_eq, h]
    rfl
  simp only [nimbusRpc, e, Nimbus.outcome, newest_read]
  rfl

/-- The same without the documents. -/
def plainRpc : Rpc (Talk Unit) where
  portal := false
  chainId s := (some 1, note (chainAt server) s)
  bootstrap _ s := (.ok (bootstrapOf boot), note (bootstrapAt server trusted) s)
  updates _ _ s := (.ok [], note (updatesAt server 5 128) s)
  finality s := (.error .other, note (finalityAt server) s)
  optimistic s := (.ok (optimisticOf newest), note (optimisticAt server) s)
  clock s := (1606824023 + 12 * 41060, s)

theorem http_clock (s : Talk Unit) : (nimbusRpc strict http server).clock s = (1606824023 + 12 * 41060, s) := rfl
theorem plain_clock (s : Talk Unit) : plainRpc.clock s = (1606824023 + 12 * 41060, s) := rfl
theorem slot_now : LightNode.slotAt 1606824023 (1606824023 + 12 * 41060) = some 41060 := by decide +kernel

theorem latest_same (cfg : LightClient.Config) (c : Client) (s : Talk Unit) :
    LightNode.latest env cfg (nimbusRpc strict http server) c s = LightNode.latest env cfg plainRpc c s := by
  have p : LightNode.processNow env cfg (nimbusRpc strict http server) = LightNode.processNow env cfg plainRpc := by
    funext c m s
    simp only [LightNode.processNow, LightNode.slotNow, http_clock, plain_clock]
  have f : ∀ s, plainRpc.finality s = (.error .other, note (finalityAt server) s) := fun _ => rfl
  have o : ∀ s, plainRpc.optimistic s = (.ok (optimisticOf newest), note (optimisticAt server) s) := fun _ => rfl
  simp only [LightNode.latest, LightNode.latestFinality, LightNode.latestOptimistic, http_finality, http_optimistic, p, f, o]

theorem sync_same : LightNode.sync env (mainnetConfig trusted) 1606824023 (nimbusRpc strict http server) LightNode.emptyClient =
    LightNode.sync env (mainnetConfig trusted) 1606824023 plainRpc LightNode.emptyClient := by
  funext s
  have hb : (nimbusRpc strict http server).bootstrap (mainnetConfig trusted).checkpoint s =
    (.ok (bootstrapOf boot), note (bootstrapAt server trusted) s) := http_boot s
  have hb' : plainRpc.bootstrap (mainnetConfig trusted).checkpoint s =
    (.ok (bootstrapOf boot), note (bootstrapAt server trusted) s) := rfl
  have hc : ∀ s, LightNode.slotNow 1606824023 (nimbusRpc strict http server) s = (some 41060, s) := fun s => by
    simp only [LightNode.slotNow, http_clock, slot_now]
  have hc' : ∀ s, LightNode.slotNow 1606824023 plainRpc s = (some 41060, s) := fun s => by
    simp only [LightNode.slotNow, plain_clock, slot_now]
  simp only [LightNode.sync, hb, hb', hc, hc']
  cases h : LightClient.bootstrap env (mainnetConfig trusted) 41060 LightNode.emptyClient (bootstrapOf boot) with
  | error e => rfl
  | ok c =>
    obtain ⟨-, -, -, h4⟩ := LightNode.bootstrap_ok _ _ _ _ _ _ h
    have hs : c.store.finalized.slot = 40960 := by rw [h4]; rfl
    have hu : ∀ s, LightNode.fetchUpdates (nimbusRpc strict http server) (LightClient.syncPeriod c.store.finalized.slot.toNat) s =
        (.ok [], note (updatesAt server 5 128) s) := fun s => by rw [hs]; exact http_updates s
    have hu' : ∀ s, LightNode.fetchUpdates plainRpc (LightClient.syncPeriod c.store.finalized.slot.toNat) s =
        (.ok [], note (updatesAt server 5 128) s) := fun _ => rfl
    simp only [LightNode.syncFrom, hu, hu', LightNode.processList, latest_same]

theorem nodeSync_same (s : Talk Unit) : ((Nimbus.fresh strict http).sync env s).1.1 =
    (LightNode.sync env (mainnetConfig trusted) 1606824023 plainRpc LightNode.emptyClient (note (chainAt server) s)).1.2 := by
  have h1 : (Nimbus.fresh strict http).settings.chainId = 1 := rfl
  have h2 : (Nimbus.fresh strict http).settings.config (Nimbus.fresh strict http).checkpoint = mainnetConfig trusted := rfl
  have h3 : (Nimbus.fresh strict http).settings.genesisTime = 1606824023 := rfl
  have h4 : (Nimbus.fresh strict http).rpc = nimbusRpc strict http server := rfl
  have h5 : (Nimbus.fresh strict http).client = LightNode.emptyClient := rfl
  simp only [Node.sync, h1, h2, h3, h4, h5, http_chain, ne_eq, not_true_eq_false, if_false, sync_same]

/-- A start that succeeds, having asked for everything. -/
example : (Nimbus.main env strict http none ()).1.isSome = true ∧ (Nimbus.main env strict http none ()).2.urls = startPlan 5 := by
  have h : ((Nimbus.fresh strict http).sync env ⟨(), []⟩).1.1 = none := by
    rw [nodeSync_same]
    decide +kernel
  have hs : (Nimbus.main env strict http none ()).1.isSome = true := by
    simp only [Nimbus.main, Nimbus.launch_eq, Nimbus.start_eq]
    have e : (http.serve ()).1 = true := rfl
    have e' : (http.serve ()).2 = () := rfl
    simp only [e, e', h]
    rfl
  obtain ⟨first, -, h2⟩ := C109_requests env strict http none ()
  obtain ⟨h3, s1, j, x, h4, h5, h6⟩ := h2 hs
  refine ⟨hs, ?_⟩
  rw [h3]
  have hj : j = doc ((LcJson.bootstrap strict .electra).ser boot) := by
    have ha : answer (bootstrapAt server trusted) = some (doc ((LcJson.bootstrap strict .electra).ser boot)) := by
      simp only [answer]
      rw [if_neg (by decide +kernel), if_pos trivial]
    simp only [http] at h4
    rw [ha] at h4
    exact (Option.some.inj h4).symm
  have hx : x = boot := by
    have := ((Nimbus.good_inData LcJson.hered_false (LcJson.good_bootstrap LcJson.hered_false strict .electra)).exact _ _).mpr h5
    rw [hj, boot_read] at this
    cases this; rfl
  rw [h6, hx]
  rfl

theorem clean_doc {j : Json} (h : ¬ OtherThan96 j) : ¬ OtherThan96 (doc j) := by
  refine Nimbus.clean_obj ?_ ?_
  · intro m hm
    simp only [List.mem_cons, List.not_mem_nil, or_false] at hm
    rcases hm with rfl | rfl
    · exact Nimbus.clean_str _
    · exact h
  · intro v hv
    simp only [List.mem_cons, List.not_mem_nil, or_false, Prod.mk.injEq] at hv
    rcases hv with ⟨h, -⟩ | ⟨h, -⟩ <;> exact absurd h (by decide)

/-- This server meets what `C109_alive_partial` asks for. -/
example : ∀ url x j, (http.get url x).1 = some j → ¬ OtherThan96 j := by
  intro url x j h
  simp only [http, answer] at h
  split at h
  · cases h
    refine clean_doc (Nimbus.clean_obj ?_ ?_)
    · intro m hm
      simp only [List.mem_cons, List.not_mem_nil, or_false] at hm
      rcases hm with rfl | rfl <;> exact Nimbus.clean_str _
    · intro v hv
      simp only [List.mem_cons, List.not_mem_nil, or_false, Prod.mk.injEq] at hv
      rcases hv with ⟨h, -⟩ | ⟨h, -⟩ <;> exact absurd h (by decide)
  · split at h
    · cases h; exact clean_doc ((C109_written_alive strict).2.2.2 _)
    · split at h
      · cases h; exact Nimbus.clean_arr (by simp) (by simp)
      · split at h
        · cases h; exact clean_doc ((C109_written_alive strict).2.2.1 _)
        · cases h

theorem given (m : LightClient.Msg) (h : Given (nimbusRpc strict http server) m) : m = optimisticOf newest := by
  obtain ⟨s, ⟨p, n, ms, h, hm⟩ | h | h⟩ := h
  · obtain ⟨j, xs, h1, ⟨js, rfl, h2⟩, rfl⟩ := ((C109_answers strict http server s).2.2.1 p n ms).mp h
    simp only [http, answer] at h1
    split at h1
    · cases h1
    · split at h1
      · cases h1
      · split at h1
        · cases h1; cases h2; cases hm
        · split at h1 <;> cases h1
  · rw [http_finality] at h; cases h
  · rw [http_optimistic] at h; cases h; rfl

example : Trusted env ⟨fun _ => True, fun _ => BeaconValidator.committeeOf LightLifeEx.keys⟩ (nimbusRpc strict http server) trusted := by
  refine ⟨fun s b h => ⟨fun _ => trivial, fun _ _ => ?_⟩, fun m hm => ⟨fun _ _ => trivial, fun _ _ _ _ _ _ => trivial, ?_⟩⟩
  · rw [http_boot] at h
    cases h; rfl
  · intro c b hc
    rw [given m hm] at hc
    cases hc

/-- A chain given as a number is not read, nor another chain accepted. -/
example : (Nimbus.inData Nimbus.spec).de (doc (.obj [(chars% "DEPOSIT_NETWORK_ID", .num 1)])) = .err := rfl
example : (Nimbus.inData Nimbus.spec).de (doc (.obj [(chars% "DEPOSIT_NETWORK_ID", .str (chars% "17000"))])) = .ok 17000 := rfl

/-- The answer of a checkpoint service. -/
def service : Json := .obj [(chars% "data", .obj [(chars% "slots", .arr [
  .obj [(chars% "slot", .str (chars% "64")), (chars% "epoch", .num 2), (chars% "time", .obj [(chars% "start_time", .str []), (chars% "end_time", .str [])])],
  .obj [(chars% "slot", .num 32), (chars% "block_root", .str (Hex.hexEncode (Id.bytes 7))), (chars% "epoch", .str (chars% "1")),
    (chars% "time", .arr [.str [], .str []])]])])]
example : SlotsJson strict service [⟨64, none, 2⟩, ⟨32, some 7, 1⟩] := (Nimbus.slots_ok strict _ _).mp (by rfl)

end NimbusExamples

end Verif.Props
