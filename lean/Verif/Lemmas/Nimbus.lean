import Verif.Props.NimbusSpec
import Verif.Lemmas.LcJson
import Verif.Lemmas.LightNodePortal
import Verif.Lemmas.BridgeCli

/-! # Lemmas about the stand-alone light client -/

namespace Verif.Nimbus
open Verif.E2store (Res)
open Verif.JsonRpc (Json)
open Verif.LcJson
open Verif.LightNode (Rpc Web Fail Slot Service Node Builder Settings)
open Verif.LightClient (Env Client Msg)
open Verif.Props.LcJsonSpec Verif.Props.NimbusSpec Verif.Props.LightLife
open Verif.Props.BridgeSpec (Numeral)
open scoped Verif.Provider

variable {σ : Type}

/-! ## Texts -/

theorem decimal_eq (n : Nat) : HeadGen.decimal n = Nat.toDigits 10 n := by
  have hd : ∀ k, k < 10 → Char.ofNat (48 + k) = Nat.digitChar k := by decide
  fun_induction HeadGen.decimal n with
  | case1 n h => rw [Nat.toDigits_of_lt_base h, hd n h]
  | case2 n h ih => rw [Nat.toDigits_of_base_le (by omega) (by omega), ih, hd _ (by omega)]

theorem hexBody_eq (bs : Bytes) : Hex.hexBody Hex.digit bs =
    bs.flatMap fun b => [Nat.digitChar (b.toNat / 16), Nat.digitChar (b.toNat % 16)] := by
  have hd : ∀ k, k < 16 → Hex.digit k = Nat.digitChar k := by decide
  induction bs with
  | nil => rfl
  | cons b bs ih =>
    have := b.toNat_lt
    simp only [Hex.hexBody, List.flatMap_cons, List.cons_append, List.nil_append, ih]
    rw [hd _ (by omega), hd _ (by omega)]

theorem bootstrapUrl_eq (rpc : List Char) (root : Id) : bootstrapUrl rpc root = bootstrapAt rpc root := by
  simp only [bootstrapUrl, bootstrapAt, hexText, Hex.hexEncode, hexBody_eq]
  rfl

theorem updatesUrl_eq (rpc : List Char) (p n : UInt64) : updatesUrl rpc p n = updatesAt rpc p.toNat (min n.toNat 128) := by
  simp only [updatesUrl, updatesAt, decimal_eq]
  rfl

theorem finalityUrl_eq (rpc : List Char) : finalityUrl rpc = finalityAt rpc := rfl
theorem optimisticUrl_eq (rpc : List Char) : optimisticUrl rpc = optimisticAt rpc := rfl
theorem specUrl_eq (rpc : List Char) : specUrl rpc = chainAt rpc := rfl

/-! ## Documents -/

theorem good_inData {B : Json → Prop} (hB : Hered B) {α} {t : JTy α} {P : Json → α → Prop} (ht : Good B t P) :
    Good B (inData t) (DataJson P) :=
  good_struct hB (goodm_cons ht goodm_nil) (show List.Nodup [chars% "data"] by decide) (fun _ => rfl) (fun _ => rfl)

theorem good_numeral {B : Json → Prop} : Good B numeral (fun v n => ∃ t, v = .str t ∧ Numeral t n.toNat) where
  exact j x := by
    cases j with
    | str s =>
      simp only [numeral, map_ok, ofOption_ok]
      constructor
      · rintro ⟨n, h1, rfl⟩
        have hN := (BridgeCli.parseU64_iff s n).mp h1
        obtain ⟨ds, -, -, -, hlt, -⟩ := id hN
        refine ⟨s, rfl, ?_⟩
        rw [UInt64.toNat_ofNat', Nat.mod_eq_of_lt hlt]
        exact hN
      · rintro ⟨t, h1, h2⟩
        cases h1
        exact ⟨x.toNat, (BridgeCli.parseU64_iff s _).mpr h2, by simp⟩
    | _ => simp [numeral]
  writes x := ⟨_, rfl, BridgeCli.numeral_decimal _ x.toNat_lt⟩
  panics j h := by
    simp only [numeral] at h
    split at h
    · exact absurd (map_panic.mp h) ofOption_panic
    · cases h

theorem good_spec {B : Json → Prop} (hB : Hered B) : Good B spec (fun j n => ChainJson j n.toNat) :=
  good_struct hB (goodm_cons good_numeral goodm_nil) (show List.Nodup [chars% "DEPOSIT_NETWORK_ID"] by decide)
    (fun _ => rfl) (fun _ => rfl)

theorem allData_ok {B : Json → Prop} (hB : Hered B) {α} {t : JTy α} {P : Json → α → Prop} (ht : Good B t P) (j : Json) (xs : List α) :
    allData t j = .ok xs ↔ IsArray (DataJson P) j xs := by
  unfold allData IsArray
  split
  · next js =>
    rw [readAll_ok (P := DataJson P) (fun j x => (good_inData hB ht).exact j x)]
    simp
  · next hn =>
    constructor
    · intro h; cases h
    · rintro ⟨js, rfl, _⟩; exact absurd rfl (hn js)

theorem allData_panic {B : Json → Prop} (hB : Hered B) {α} {t : JTy α} {P : Json → α → Prop} (ht : Good B t P) {j : Json}
    (h : allData t j = .panic) : B j := by
  unfold allData at h
  split at h
  · obtain ⟨j, hm, h⟩ := readAll_panic _ h
    exact hB.arr _ _ hm ((good_inData hB ht).panics j h)
  · cases h

theorem good_text {B : Json → Prop} : Good B text TextJson := good_str

theorem outcome_ok {α} {read : Json → Res α} {o : Option Json} {x : α} :
    outcome read o = .ok x ↔ ∃ j, o = some j ∧ read j = .ok x := by
  cases o with
  | none => simp [outcome]
  | some j => simp only [outcome]; cases h : read j <;> simp [h]

theorem outcome_abort {α} {read : Json → Res α} {o : Option Json} :
    outcome read o = .error .abort ↔ ∃ j, o = some j ∧ read j = .panic := by
  cases o with
  | none => simp [outcome]
  | some j => simp only [outcome]; cases h : read j <;> simp [h]

theorem outcome_tooOld {α} (read : Json → Res α) (o : Option Json) : outcome read o ≠ .error .tooOld := by
  cases o with
  | none => simp [outcome]
  | some j => simp only [outcome]; cases read j <;> simp

theorem except_map_ok {α β} {f : α → β} {x : Except Fail α} {y : β} : x.map f = .ok y ↔ ∃ a, x = .ok a ∧ f a = y := by
  cases x <;> simp [Except.map]
theorem except_map_error {α β} {f : α → β} {x : Except Fail α} {e : Fail} : x.map f = .error e ↔ x = .error e := by
  cases x <;> simp [Except.map]

theorem plain (lib : Lib) (w : Http σ) (rpc : List Char) : Plain (nimbusRpc lib w rpc) where
  bootstrap _ _ h := outcome_tooOld _ _ (except_map_error.mp h)
  updates _ _ _ h := outcome_tooOld _ _ (except_map_error.mp h)
  optimistic _ h := outcome_tooOld _ _ (except_map_error.mp h)

/-! ## Slots of checkpoint services -/

theorem each_map {α β γ} {P : α → β → Prop} {Q : α → γ → Prop} {f : β → γ} (h : ∀ a c, Q a c ↔ ∃ b, P a b ∧ f b = c) :
    ∀ (as : List α) (cs : List γ), Each Q as cs ↔ ∃ bs, Each P as bs ∧ bs.map f = cs
  | [], cs => by
    constructor
    · rintro ⟨⟩; exact ⟨[], .nil, rfl⟩
    · rintro ⟨bs, ⟨⟩, rfl⟩; exact .nil
  | a :: as, cs => by
    constructor
    · intro hh
      cases hh with
      | cons h1 h2 =>
        obtain ⟨b, hb, rfl⟩ := (h _ _).mp h1
        obtain ⟨bs, hbs, rfl⟩ := (each_map h as _).mp h2
        exact ⟨b :: bs, .cons hb hbs, rfl⟩
    · rintro ⟨bs, hb, rfl⟩
      cases hb with
      | cons h1 h2 => exact .cons ((h _ _).mpr ⟨_, h1, rfl⟩) ((each_map h as _).mpr ⟨_, h2, rfl⟩)

theorem isObject_iff {n : List Char} {P : Json → Prop} {j : Json} : IsObject false [needed n P] j ↔
    ∃ v, IsObject false [needed n (fun u => u = v)] j ∧ P v := by
  constructor
  · rintro (⟨ms, rfl, h1, h2⟩ | ⟨vs, rfl, h⟩)
    · rcases h1 (needed n P) (by simp) with ⟨h, hn⟩ | ⟨v, h, hv⟩
      · obtain ⟨v, h, _⟩ := hn; cases h
      · obtain ⟨v', h', hP⟩ := hv
        cases h'
        refine ⟨v, .inl ⟨ms, rfl, ?_, by simp⟩, hP⟩
        intro f hf
        simp only [List.mem_singleton] at hf
        subst hf
        exact .inr ⟨v, h, v, rfl, rfl⟩
    · cases h with
      | cons h1 h2 =>
        obtain ⟨v, h', hP⟩ := h1
        cases h'
        cases h2
        exact ⟨_, .inr ⟨_, rfl, .cons ⟨_, rfl, rfl⟩ .nil⟩, hP⟩
  · rintro ⟨v, (⟨ms, rfl, h1, h2⟩ | ⟨vs, rfl, h⟩), hP⟩
    · refine .inl ⟨ms, rfl, ?_, by simp⟩
      intro f hf
      simp only [List.mem_singleton] at hf
      subst hf
      rcases h1 (needed n (fun u => u = v)) (by simp) with ⟨h, hn⟩ | ⟨v', h, hv⟩
      · obtain ⟨v, h, _⟩ := hn; cases h
      · obtain ⟨v'', h', rfl⟩ := hv
        cases h'
        exact .inr ⟨_, h, _, rfl, hP⟩
    · refine .inr ⟨vs, rfl, ?_⟩
      cases h with
      | cons h1 h2 =>
        obtain ⟨v'', h', rfl⟩ := h1
        cases h'
        cases h2
        exact .cons ⟨_, rfl, hP⟩ .nil

theorem isObject_congr {n : List Char} {P Q : Json → Prop} (h : ∀ v, P v ↔ Q v) (j : Json) :
    IsObject false [needed n P] j ↔ IsObject false [needed n Q] j := by
  have : P = Q := funext fun v => propext (h v)
  rw [this]

/-- A slot with all its fields. -/
abbrev Full := UInt64 × Option Id × Option Id × UInt64 × (List Char × List Char × Unit) × Unit

def FullJson (lib : Lib) (j : Json) (x : Full) : Prop :=
  IsObject false [needed (chars% "slot") (IsNumber lib · x.1), Props.LcJsonSpec.optional (chars% "block_root") (IsWord lib) x.2.1,
      Props.LcJsonSpec.optional (chars% "state_root") (IsWord lib) x.2.2.1, needed (chars% "epoch") (IsNumber lib · x.2.2.2.1),
      needed (chars% "time") (IsObject false [needed (chars% "start_time") (TextJson · x.2.2.2.2.1.1),
        needed (chars% "end_time") (TextJson · x.2.2.2.2.1.2.1)])] j

theorem good_full {B : Json → Prop} (hB : Hered B) (lib : Lib) : Good B (struct false (slotMembers lib) id id) (FullJson lib) :=
  good_struct hB (goodm_cons (good_u64 lib) <| goodm_opt (good_word lib) (fun _ h => by cases h) <|
    goodm_opt (good_word lib) (fun _ h => by cases h) <| goodm_cons (good_u64 lib) <|
    goodm_cons (good_struct hB (goodm_cons good_text <| goodm_cons good_text goodm_nil)
      (show List.Nodup [chars% "start_time", chars% "end_time"] by decide) (fun _ => rfl) (fun _ => rfl)) goodm_nil)
    (show List.Nodup [chars% "slot", chars% "block_root", chars% "state_root", chars% "epoch", chars% "time"] by decide)
    (fun _ => rfl) (fun _ => rfl)

def slim (x : Full) : Slot := ⟨x.1.toNat, x.2.1, x.2.2.2.1.toNat⟩

theorem slotJson_iff (lib : Lib) (j : Json) (s : Slot) : SlotJson lib j s ↔ ∃ x, FullJson lib j x ∧ slim x = s := by
  constructor
  · rintro ⟨n, e, st, t, u, h1, h2, h3⟩
    exact ⟨(n, s.blockRoot, st, e, (t, u, ()), ()), h3, by cases s; simp_all [slim]⟩
  · rintro ⟨x, h, rfl⟩
    exact ⟨x.1, x.2.2.2.1, x.2.2.1, x.2.2.2.2.1.1, x.2.2.2.2.1.2.1, rfl, rfl, h⟩

theorem good_array {B : Json → Prop} (hB : Hered B) {α} {t : JTy α} {P : Json → α → Prop} (ht : Good B t P) :
    Good B (array t) (IsArray P) where
  exact j xs := by
    cases j with
    | arr js =>
      simp only [array, IsArray, readAll_ok ht.exact]
      constructor
      · intro h; exact ⟨js, rfl, h⟩
      · rintro ⟨_, h1, h2⟩; cases h1; exact h2
    | _ => simp [array, IsArray]
  writes xs := ⟨_, rfl, by
    induction xs with
    | nil => exact .nil
    | cons x xs ih => exact .cons (ht.writes x) ih⟩
  panics j h := by
    simp only [array] at h
    split at h
    · obtain ⟨j, hm, h⟩ := readAll_panic _ h
      exact hB.arr _ _ hm (ht.panics j h)
    · cases h

theorem slots_ok (lib : Lib) (j : Json) (xs : List Slot) : slots lib j = .ok xs ↔ SlotsJson lib j xs := by
  have hg := good_inData hered_false (good_struct (closed := false) (f := fun x => x.1) (g := (·, ())) hered_false
    (goodm_cons (name := chars% "slots") (good_array hered_false (good_full hered_false lib)) goodm_nil)
    (show List.Nodup [chars% "slots"] by decide) (fun _ => rfl) (fun _ => rfl))
  have key : ∀ v, IsArray (SlotJson lib) v xs ↔ ∃ bs, IsArray (FullJson lib) v bs ∧ bs.map slim = xs := by
    intro v
    simp only [IsArray, each_map (slotJson_iff lib)]
    constructor
    · rintro ⟨js, rfl, bs, h1, h2⟩; exact ⟨bs, ⟨js, rfl, h1⟩, h2⟩
    · rintro ⟨bs, ⟨js, rfl, h1⟩, h2⟩; exact ⟨js, rfl, bs, h1, h2⟩
  unfold slots
  rw [map_ok]
  constructor
  · rintro ⟨bs, h1, h2⟩
    have h1 := (hg.exact j bs).mp h1
    obtain ⟨v, hv, h3⟩ := isObject_iff.mp h1
    obtain ⟨u, hu, h4⟩ := isObject_iff.mp h3
    exact isObject_iff.mpr ⟨v, hv, isObject_iff.mpr ⟨u, hu, (key u).mpr ⟨bs, h4, h2⟩⟩⟩
  · intro h
    obtain ⟨v, hv, h3⟩ := isObject_iff.mp h
    obtain ⟨u, hu, h4⟩ := isObject_iff.mp h3
    obtain ⟨bs, h5, h6⟩ := (key u).mp h4
    exact ⟨bs, (hg.exact j bs).mpr (isObject_iff.mpr ⟨v, hv, isObject_iff.mpr ⟨u, hu, h5⟩⟩), h6⟩

/-! ## Requests -/

section
variable {env : Env} {cfg : LightClient.Config} {lib : Lib} {w : Http σ} {rpc : List Char}

theorem processNow_urls (c : Client) (m : Msg) (s : Talk σ) :
    (LightNode.processNow env cfg (nimbusRpc lib w rpc) c m s).2.urls = s.urls := by
  simp only [LightNode.processNow, LightNode.slotNow]
  split
  · rfl
  · split <;> rfl

theorem processList_urls (ms : List Msg) (c : Client) (s : Talk σ) :
    (LightNode.processList env cfg (nimbusRpc lib w rpc) c ms s).2.urls = s.urls := by
  induction ms generalizing c s with
  | nil => rfl
  | cons m ms ih =>
    simp only [LightNode.processList]
    split
    · exact processNow_urls c m s
    · rw [ih, processNow_urls]

theorem latestFinality_urls (c : Client) (s : Talk σ) :
    (LightNode.latestFinality env cfg (nimbusRpc lib w rpc) c s).2.urls = s.urls ++ [finalityAt rpc] := by
  simp only [LightNode.latestFinality]
  split
  · exact processNow_urls _ _ _
  · rfl
  · rfl

theorem latestOptimistic_urls (c : Client) (s : Talk σ) :
    (LightNode.latestOptimistic env cfg (nimbusRpc lib w rpc) c s).2.urls = s.urls ++ [optimisticAt rpc] := by
  simp only [LightNode.latestOptimistic]
  split
  · rfl
  · exact processNow_urls _ _ _

theorem latest_urls (c : Client) (s : Talk σ) :
    ∃ us, (LightNode.latest env cfg (nimbusRpc lib w rpc) c s).2.urls = s.urls ++ us ∧ us ≠ [] ∧
      us <+: [finalityAt rpc, optimisticAt rpc] ∧
      ((LightNode.latest env cfg (nimbusRpc lib w rpc) c s).1.2 = none → us = [finalityAt rpc, optimisticAt rpc]) := by
  simp only [LightNode.latest]
  split
  · refine ⟨[finalityAt rpc], latestFinality_urls c s, by simp, ⟨[optimisticAt rpc], rfl⟩, ?_⟩
    intro h; cases h
  · refine ⟨[finalityAt rpc, optimisticAt rpc], ?_, by simp, List.prefix_refl _, fun _ => rfl⟩
    rw [latestOptimistic_urls, latestFinality_urls, List.append_assoc]
    rfl

theorem updates_urls (p n : UInt64) (s : Talk σ) :
    ((nimbusRpc lib w rpc).updates p n s).2.urls = s.urls ++ [updatesAt rpc p.toNat (min n.toNat 128)] := by
  show s.urls ++ [updatesUrl rpc p n] = _
  rw [updatesUrl_eq]

theorem syncFrom_urls (c : Client) (s : Talk σ) :
    ∃ us, (LightNode.syncFrom env cfg (nimbusRpc lib w rpc) c s).2.urls = s.urls ++ us ∧
      us <+: [updatesAt rpc (c.store.finalized.slot.toNat / 8192) 128, finalityAt rpc, optimisticAt rpc] ∧
      ((LightNode.syncFrom env cfg (nimbusRpc lib w rpc) c s).1.2 = none →
        us = [updatesAt rpc (c.store.finalized.slot.toNat / 8192) 128, finalityAt rpc, optimisticAt rpc]) := by
  have hu : (LightNode.fetchUpdates (nimbusRpc lib w rpc) (LightClient.syncPeriod c.store.finalized.slot.toNat) s).2.urls =
      s.urls ++ [updatesAt rpc (c.store.finalized.slot.toNat / 8192) 128] := by
    have hp : LightClient.syncPeriod c.store.finalized.slot.toNat = c.store.finalized.slot.toNat / 8192 := by
      simp only [LightClient.syncPeriod]; omega
    have hl := c.store.finalized.slot.toNat_lt
    show ((nimbusRpc lib w rpc).updates (UInt64.ofNat (LightClient.syncPeriod c.store.finalized.slot.toNat)) 128 s).2.urls = _
    rw [updates_urls, hp, UInt64.toNat_ofNat', Nat.mod_eq_of_lt (by omega)]
    rfl
  simp only [LightNode.syncFrom]
  split
  · exact ⟨_, hu, ⟨_, rfl⟩, fun h => by cases h⟩
  · split
    · exact ⟨_, by rw [processList_urls]; exact hu, ⟨_, rfl⟩, fun h => by cases h⟩
    · rename_i ms _ _ _
      generalize hx : LightNode.processList env cfg (nimbusRpc lib w rpc) c ms
        (LightNode.fetchUpdates (nimbusRpc lib w rpc) (LightClient.syncPeriod c.store.finalized.slot.toNat) s).2 = x
      have hxu : x.2.urls = s.urls ++ [updatesAt rpc (c.store.finalized.slot.toNat / 8192) 128] := by
        rw [← hx, processList_urls]; exact hu
      obtain ⟨us, h1, -, ⟨r, h2⟩, h3⟩ := latest_urls (env := env) (cfg := cfg) (lib := lib) (w := w) (rpc := rpc) x.1.1 x.2
      refine ⟨updatesAt rpc (c.store.finalized.slot.toNat / 8192) 128 :: us, ?_, ⟨r, ?_⟩, fun h => ?_⟩
      · rw [h1, hxu, List.append_assoc]; rfl
      · rw [List.cons_append, h2]
      · rw [h3 h]

theorem sync_urls (genesis : Nat) (c : Client) (s : Talk σ) :
    ∃ us first, (LightNode.sync env cfg genesis (nimbusRpc lib w rpc) c s).2.urls = s.urls ++ us ∧
      us <+: [bootstrapAt rpc cfg.checkpoint, updatesAt rpc first 128, finalityAt rpc, optimisticAt rpc] ∧
      ((LightNode.sync env cfg genesis (nimbusRpc lib w rpc) c s).1.2 = none →
        us = [bootstrapAt rpc cfg.checkpoint, updatesAt rpc first 128, finalityAt rpc, optimisticAt rpc] ∧
        ∃ b, ((nimbusRpc lib w rpc).bootstrap cfg.checkpoint s).1 = .ok b ∧ first = b.header.slot.toNat / 8192) := by
  have hb : ((nimbusRpc lib w rpc).bootstrap cfg.checkpoint s).2.urls = s.urls ++ [bootstrapAt rpc cfg.checkpoint] := by
    show s.urls ++ [bootstrapUrl rpc cfg.checkpoint] = _
    rw [bootstrapUrl_eq]
  simp only [LightNode.sync]
  split
  · exact ⟨_, 0, hb, ⟨_, rfl⟩, fun h => by cases h⟩
  · next boot hboot =>
    simp only [LightNode.slotNow]
    split
    · exact ⟨_, 0, hb, ⟨_, rfl⟩, fun h => by cases h⟩
    · split
      · exact ⟨_, 0, hb, ⟨_, rfl⟩, fun h => by cases h⟩
      · next c0 hc =>
        obtain ⟨-, -, -, h4⟩ := LightNode.bootstrap_ok _ _ _ _ _ _ hc
        have hs : c0.store.finalized = boot.header := by rw [h4]
        obtain ⟨us, h1, ⟨r, h2⟩, h3⟩ := syncFrom_urls (env := env) (cfg := cfg) (lib := lib) (w := w) (rpc := rpc) c0
          ((nimbusRpc lib w rpc).clock ((nimbusRpc lib w rpc).bootstrap cfg.checkpoint s).2).2
        rw [hs] at h2 h3
        refine ⟨bootstrapAt rpc cfg.checkpoint :: us, boot.header.slot.toNat / 8192, ?_, ⟨r, ?_⟩, fun h => ⟨?_, boot, hboot, rfl⟩⟩
        · rw [h1]
          show ((nimbusRpc lib w rpc).bootstrap cfg.checkpoint s).2.urls ++ us = _
          rw [hb, List.append_assoc]; rfl
        · rw [List.cons_append, h2]
        · rw [h3 h]

theorem advance_urls (c : Client) (s : Talk σ) :
    ∃ us period, (LightNode.advance env cfg (nimbusRpc lib w rpc) c s).2.urls = s.urls ++ us ∧ us ≠ [] ∧
      us <+: [finalityAt rpc, optimisticAt rpc, updatesAt rpc period 1] ∧
      ((LightNode.advance env cfg (nimbusRpc lib w rpc) c s).1.2 = none → 2 ≤ us.length ∧
        ((LightNode.advance env cfg (nimbusRpc lib w rpc) c s).1.1.store.next = none → us.length = 3)) ∧
      (us.length = 3 → period =
        (LightNode.latest env cfg (nimbusRpc lib w rpc) c s).1.1.store.finalized.slot.toNat / 8192 ∧
        (LightNode.latest env cfg (nimbusRpc lib w rpc) c s).1.1.store.next = none) := by
  obtain ⟨us, h1, h0, ⟨r, h2⟩, h3⟩ := latest_urls (env := env) (cfg := cfg) (lib := lib) (w := w) (rpc := rpc) c s
  have hlen : us.length ≤ 2 := by
    have := congrArg List.length h2
    simp at this; omega
  simp only [LightNode.advance]
  generalize LightNode.latest env cfg (nimbusRpc lib w rpc) c s = l at h1 h3
  split
  · refine ⟨us, 0, h1, h0, ⟨r ++ [updatesAt rpc 0 1], ?_⟩, fun h => (by cases h), fun h => by omega⟩
    rw [← List.append_assoc, h2]; rfl
  · next hn =>
    have hus := h3 hn
    split
    · next hnext =>
      have hp : LightClient.syncPeriod l.1.1.store.finalized.slot.toNat = l.1.1.store.finalized.slot.toNat / 8192 := by
        simp only [LightClient.syncPeriod]; omega
      have hl := l.1.1.store.finalized.slot.toNat_lt
      have hu : ((nimbusRpc lib w rpc).updates (UInt64.ofNat (LightClient.syncPeriod l.1.1.store.finalized.slot.toNat)) 1 l.2).2.urls =
          s.urls ++ [finalityAt rpc, optimisticAt rpc, updatesAt rpc (l.1.1.store.finalized.slot.toNat / 8192) 1] := by
        rw [updates_urls, h1, hus, hp, UInt64.toNat_ofNat', Nat.mod_eq_of_lt (by omega), List.append_assoc]
        rfl
      refine ⟨[finalityAt rpc, optimisticAt rpc, updatesAt rpc (l.1.1.store.finalized.slot.toNat / 8192) 1], _, ?_, by simp,
        List.prefix_refl _, fun _ => ⟨by simp, fun _ => rfl⟩, fun _ => ⟨rfl, by simpa using hnext⟩⟩
      split
      · exact hu
      · split
        · rw [processNow_urls]; exact hu
        · show (LightNode.processNow env cfg (nimbusRpc lib w rpc) l.1.1 _ _).2.urls = _
          rw [processNow_urls]; exact hu
      · exact hu
    · next hnext =>
      refine ⟨us, 0, h1, h0, ⟨r ++ [updatesAt rpc 0 1], ?_⟩, fun _ => ⟨by rw [hus]; simp, fun h => ?_⟩, fun h => by omega⟩
      · rw [← List.append_assoc, h2]; rfl
      · rw [h] at hnext; simp at hnext

end

/-! ## The program -/

/-- What `build` makes of the settings of the program. -/
def programSettings : Settings where
  consensusRpc := server
  rpcPort := some 8544
  defaultCheckpoint := 0x766647f3c4e1fc91c0db9a9374032ae038778411fbff222974e11f2e3ce7dadf
  checkpoint := some trusted
  dataDir := some (chars% "/tmp/light-client")
  chainId := 1
  genesisTime := 1606824023
  genesisRoot := 0x4b363db94e286120d76eb905340fdd4e54bfe9f06bf33ff6cf5ad27f511bfe95
  forks := [(364032, [5, 0, 0, 0]), (269568, [4, 0, 0, 0]), (194048, [3, 0, 0, 0]), (144896, [2, 0, 0, 0]),
    (74240, [1, 0, 0, 0])]
  genesisVersion := [0, 0, 0, 0]
  maxCheckpointAge := 1209600
  fallback := some (chars% "https://sync-mainnet.beaconcha.in")
  loadExternal := true
  strict := false

theorem build_eq : builder.build = .ok programSettings := rfl

variable {env : Env} {lib : Lib} {w : Http σ}

/-- The node of the program before its start. -/
def fresh (lib : Lib) (w : Http σ) : Node (Talk σ) :=
  LightNode.newNode programSettings (nimbusRpc lib w server) trusted

theorem launch_eq (file : Option Bytes) (s : σ) : launch env lib w builder file s =
    (((fresh lib w).start env (webOf lib w server) ⟨s, []⟩ |>.1.1,
      some ((fresh lib w).start env (webOf lib w server) ⟨s, []⟩).1.2),
      ((fresh lib w).start env (webOf lib w server) ⟨s, []⟩).2) := rfl

/-- The start: the port, then a synchronisation, without any fallback. -/
theorem start_eq (s : Talk σ) : (fresh lib w).start env (webOf lib w server) s =
    if (w.serve s.world).1 = false then ((some .other, fresh lib w), ⟨(w.serve s.world).2, s.urls⟩)
    else
      ((match ((fresh lib w).sync env ⟨(w.serve s.world).2, s.urls⟩).1.1 with
        | none => (none, ((fresh lib w).sync env ⟨(w.serve s.world).2, s.urls⟩).1.2.spawn)
        | some f => (some f, ((fresh lib w).sync env ⟨(w.serve s.world).2, s.urls⟩).1.2)),
        ((fresh lib w).sync env ⟨(w.serve s.world).2, s.urls⟩).2) := by
  have ht : ∀ s, ((fresh lib w).sync env s).1.1 ≠ some .tooOld := fun s h => by
    have := (fresh lib w).sync_tooOld (plain lib w server) s h
    cases this
  have e : (fresh lib w).settings.rpcPort.isSome = true := rfl
  simp only [Node.start, e, if_true]
  show (if (w.serve s.world).1 = false then _ else _) = _
  split
  · rfl
  · have e' : ((webOf lib w server).serve s).2 = ⟨(w.serve s.world).2, s.urls⟩ := rfl
    rw [e']
    have ht := ht ⟨(w.serve s.world).2, s.urls⟩
    generalize (fresh lib w).sync env ⟨(w.serve s.world).2, s.urls⟩ = x at ht
    split
    · next h => simp [h]
    · next h => exact absurd h ht
    · next f _ h => simp [h]

theorem main_some {file : Option Bytes} {s : σ} {n : Node (Talk σ)} {s' : Talk σ} (h : main env lib w file s = (some n, s')) :
    (w.serve s).1 = true ∧ ∃ m, (fresh lib w).sync env ⟨(w.serve s).2, []⟩ = ((none, m), s') ∧ n = m.spawn := by
  simp only [main, launch_eq, start_eq] at h
  split at h
  · next f m hh =>
    split at hh
    · simp at hh
    · next hs =>
      simp only [hs] at h
      refine ⟨by simpa using hs, ?_⟩
      generalize (fresh lib w).sync env ⟨(w.serve s).2, []⟩ = x at h hh
      obtain ⟨⟨f, y⟩, z⟩ := x
      cases f with
      | some f => simp at hh
      | none =>
        simp at hh h
        exact ⟨y, by rw [← h.2], by rw [← h.1, hh]⟩
  · cases h

theorem sync_keeps {s : Talk σ} {m : Node (Talk σ)} {s' : Talk σ} (h : (fresh lib w).sync env s = ((none, m), s'))
    (P : Client → Prop) (K : LightNode.Keeps env (mainnetConfig trusted) (nimbusRpc lib w server) (fun _ => P))
    (hb : ∀ s0 b now c0, ((nimbusRpc lib w server).bootstrap trusted s0).1 = .ok b →
      LightClient.bootstrap env (mainnetConfig trusted) now LightNode.emptyClient b = .ok c0 → P c0) : P m.client := by
  rcases (fresh lib w).sync_eq (env := env) s with h1 | ⟨x, hx, h1⟩
  · rw [h1] at h; cases h
  · rw [h1] at h
    obtain ⟨⟨c, f⟩, u⟩ := x
    have hf : f = none := congrArg (fun y => y.1.1) h
    have hm : m = { fresh lib w with client := c } := (congrArg (fun y => y.1.2) h).symm
    subst hf hm
    have hc := LightNode.sync_cases (env := env) (cfg := mainnetConfig trusted) (r := nimbusRpc lib w server) 1606824023
      LightNode.emptyClient ((nimbusRpc lib w server).chainId s).2
    have hx' : LightNode.sync env (mainnetConfig trusted) 1606824023 (nimbusRpc lib w server) LightNode.emptyClient
      ((nimbusRpc lib w server).chainId s).2 = ((c, none), u) := hx
    rw [hx'] at hc
    rcases hc with hc | ⟨b, now, c0, g1, g2, g3, g4⟩
    · exact absurd rfl hc.2.1
    · exact g4 (fun _ => P) K (hb _ b now c0 g1 g3)

theorem main_fields {file : Option Bytes} {s : σ} {n : Node (Talk σ)} {s' : Talk σ} (h : main env lib w file s = (some n, s')) :
    n.settings = programSettings ∧ n.rpc = nimbusRpc lib w server ∧ n.checkpoint = trusted ∧ n.threads = 1 := by
  obtain ⟨-, m, h1, rfl⟩ := main_some h
  obtain ⟨f1, f2, f3, f4⟩ := (fresh lib w).sync_fields (env := env) ⟨(w.serve s).2, []⟩
  rw [h1] at f1 f2 f3 f4
  refine ⟨f1, f2, f3, ?_⟩
  show m.threads + 1 = 1
  rw [f4]; rfl

/-! ## Documents as they are written -/

def Clean {α} (t : JTy α) : Prop := ∀ x, ¬ OtherThan96 (t.ser x)
def CleanM {α} (r : Members α) : Prop := (∀ x, ∀ v ∈ r.ser x, ¬ OtherThan96 v) ∧ (chars% "sync_committee_signature") ∉ r.names

theorem clean_str (s : List Char) : ¬ OtherThan96 (.str s) := by
  rintro ⟨s, v, bs, h, h', -⟩
  cases h
  rcases h' with ⟨_, h, _⟩ | ⟨_, h⟩ <;> cases h

theorem clean_num (n : Nat) : ¬ OtherThan96 (.num n) := by
  rintro ⟨s, v, bs, h, h', -⟩
  cases h
  rcases h' with ⟨_, h, _⟩ | ⟨_, h⟩ <;> cases h

theorem clean_arr {vs : List Json} (h : ∀ v ∈ vs, ¬ OtherThan96 v) (hl : vs.length ≠ 2) : ¬ OtherThan96 (.arr vs) := by
  rintro ⟨s, v, bs, hi, hs, r⟩
  cases hi with
  | here =>
    rcases hs with ⟨_, h, _⟩ | ⟨_, h⟩
    · cases h
    · cases h; exact hl rfl
  | arr hv hi => exact h _ hv ⟨s, v, bs, hi, hs, r⟩

theorem clean_obj {ms : List (List Char × Json)} (h : ∀ m ∈ ms, ¬ OtherThan96 m.2)
    (hs : ∀ v, (chars% "sync_committee_signature", v) ∈ ms → ∀ bs, IsAnyHex v bs → bs.length = 96) : ¬ OtherThan96 (.obj ms) := by
  rintro ⟨s, v, bs, hi, hh, hx, hl⟩
  cases hi with
  | here =>
    rcases hh with ⟨_, e, hm⟩ | ⟨_, e⟩
    · cases e; exact hl (hs _ hm _ hx)
    · cases e
  | obj hv hi => exact h _ hv ⟨s, v, bs, hi, hh, hx, hl⟩

theorem clean_nil : CleanM .nil := ⟨fun _ _ h => by (cases h), by simp [Members.nil]⟩

theorem clean_cons {α β} {n : List Char} {t : JTy α} {r : Members β} (ht : Clean t) (hr : CleanM r)
    (hn : (chars% "sync_committee_signature") ≠ n := by decide) : CleanM (.cons n t r) := by
  refine ⟨fun x v hv => ?_, fun h => ?_⟩
  · rcases List.mem_cons.mp hv with rfl | hv
    · exact ht _
    · exact hr.1 _ v hv
  · rcases List.mem_cons.mp h with h | h
    · exact hn h
    · exact hr.2 h

theorem clean_struct {α β} {c : Bool} {r : Members α} {f : α → β} {g : β → α} (hr : CleanM r) : Clean (struct c r f g) := by
  intro x
  refine clean_obj (fun m hm => hr.1 _ _ (List.of_mem_zip (a := m.1) (b := m.2) hm).2) ?_
  intro v hv
  exact absurd (List.of_mem_zip hv).1 hr.2

theorem clean_vector {α} {t : JTy α} {n : Nat} (ht : Clean t) (hn : n ≠ 2) : Clean (vector t n) := by
  intro x
  refine clean_arr (fun v hv => ?_) (by simpa using fun h => hn (x.2.symm.trans h))
  obtain ⟨y, -, rfl⟩ := List.mem_map.mp hv
  exact ht y

theorem clean_word (lib : Lib) : Clean (word lib) := fun _ => clean_str _
theorem clean_u64 (lib : Lib) : Clean (u64 lib) := fun _ => clean_num _

theorem clean_aggregate : Clean syncAggregate := by
  intro x
  refine clean_obj ?_ ?_
  · intro m hm
    simp only [Members.cons, Members.nil, List.zip_cons_cons, List.zip_nil_left, List.mem_cons, List.not_mem_nil, or_false] at hm
    rcases hm with rfl | rfl
    · exact clean_str _
    · exact clean_str _
  · intro v hv bs hb
    simp only [Members.cons, Members.nil, List.zip_cons_cons, List.zip_nil_left, List.mem_cons, List.not_mem_nil, or_false,
      Prod.mk.injEq] at hv
    rcases hv with ⟨h, -⟩ | ⟨-, rfl⟩
    · exact absurd h (by decide)
    · have h1 := (good_signature (B := fun _ => True) (fun _ _ _ _ => trivial)).writes x.signature
      have h2 := (anyHex_iff _ _).mpr h1
      have h3 := (anyHex_iff _ _).mpr hb
      rw [h2] at h3
      cases h3
      exact x.signature.2

theorem clean_header (lib : Lib) : Clean (header lib) :=
  clean_struct (clean_cons (clean_u64 lib) <| clean_cons (clean_u64 lib) <| clean_cons (clean_word lib) <| clean_cons (clean_word lib) <|
    clean_cons (clean_word lib) clean_nil)

theorem clean_exec (lib : Lib) : Clean (execDeneb lib) :=
  clean_struct (clean_cons (clean_word lib) <| clean_cons (fun _ => clean_str _) <| clean_cons (clean_word lib) <|
    clean_cons (clean_word lib) <| clean_cons (fun _ => clean_str _) <| clean_cons (clean_word lib) <|
    clean_cons (clean_u64 lib) <| clean_cons (clean_u64 lib) <| clean_cons (clean_u64 lib) <| clean_cons (clean_u64 lib) <|
    clean_cons (fun _ => clean_str _) <| clean_cons (fun _ => clean_str _) <| clean_cons (clean_word lib) <|
    clean_cons (clean_word lib) <| clean_cons (clean_word lib) <| clean_cons (clean_u64 lib) <| clean_cons (clean_u64 lib) clean_nil)

theorem clean_lcHeader (lib : Lib) : Clean (lcHeader lib .electra) :=
  clean_struct (clean_cons (clean_header lib) <| clean_cons (clean_exec lib) <|
    clean_cons (clean_vector (clean_word lib) (by decide)) clean_nil)

theorem clean_committee : Clean syncCommittee :=
  clean_struct (clean_cons (clean_vector (fun _ => clean_str _) (by decide)) <| clean_cons (fun _ => clean_str _) clean_nil)

theorem clean_update (lib : Lib) : Clean (update lib .electra) :=
  clean_struct (clean_cons (clean_lcHeader lib) <| clean_cons clean_committee <|
    clean_cons (clean_vector (clean_word lib) (by decide)) <| clean_cons (clean_lcHeader lib) <|
    clean_cons (clean_vector (clean_word lib) (by decide)) <| clean_cons clean_aggregate <| clean_cons (clean_u64 lib) clean_nil)

theorem clean_finality (lib : Lib) : Clean (finality lib .electra) :=
  clean_struct (clean_cons (clean_lcHeader lib) <| clean_cons (clean_lcHeader lib) <|
    clean_cons (clean_vector (clean_word lib) (by decide)) <| clean_cons clean_aggregate <| clean_cons (clean_u64 lib) clean_nil)

theorem clean_optimistic (lib : Lib) : Clean (optimistic lib .electra) :=
  clean_struct (clean_cons (clean_lcHeader lib) <| clean_cons clean_aggregate <| clean_cons (clean_u64 lib) clean_nil)

theorem clean_bootstrap (lib : Lib) : Clean (bootstrap lib .electra) :=
  clean_struct (clean_cons (clean_lcHeader lib) <| clean_cons clean_committee <|
    clean_cons (clean_vector (clean_word lib) (by decide)) clean_nil)

end Verif.Nimbus
