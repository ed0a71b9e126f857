import Verif.Lemmas.LcJson

/-!
# C105: the JSON of the light client's data

Bootstraps, updates, finality updates, optimistic updates and the store of the light client have a JSON form, which the consensus
providers send to the bridge and which the node's own methods return. `Props/LcJsonSpec.lean` says which document stands for which
data. The theorems say that the readers take exactly these documents, that what is written is one of them, that the order of the
fields makes no difference, and what the answers of providers give.

Two of the readers do not refuse what they should: a signature of other than 96 bytes ends the task that reads it with a panic,
and a public key of any length is taken, cut or filled up to 48 bytes.
-/

namespace Verif.Props
open Verif.E2store (Res)
open Verif.JsonRpc (Json)
open Verif.LcJson (Lib LcStore)
open Verif.BeaconValue
open Verif.LightClient (Header)
open Verif.SszT (BytesN Vec)
open LcJsonSpec
open scoped Verif.Provider

/-- Reading gives `x` for exactly the documents that stand for `x`, for each kind of data and each fork. -/
theorem C105_reads (lib : Lib) (f : Fork) (j : Json) :
    (∀ h, (LcJson.header lib).de j = .ok h ↔ HeaderJson lib j h) ∧
    (∀ h, (LcJson.lcHeader lib f).de j = .ok h ↔ LcHeaderJson lib f j h) ∧
    (∀ x, (LcJson.bootstrap lib f).de j = .ok x ↔ BootstrapJson lib f j x) ∧
    (∀ x, (LcJson.update lib f).de j = .ok x ↔ UpdateJson lib f j x) ∧
    (∀ x, (LcJson.finality lib f).de j = .ok x ↔ FinalityJson lib f j x) ∧
    (∀ x, (LcJson.optimistic lib f).de j = .ok x ↔ OptimisticJson lib f j x) ∧
    (∀ x, (LcJson.store lib).de j = .ok x ↔ StoreJson lib j x) ∧
    (∀ x, (LcJson.tagged (LcJson.finality lib)).de j = .ok x ↔ TaggedJson (FinalityJson lib) j x) ∧
    (∀ x, (LcJson.tagged (LcJson.optimistic lib)).de j = .ok x ↔ TaggedJson (OptimisticJson lib) j x) :=
  ⟨(LcJson.good_header LcJson.hered_false lib).exact j, (LcJson.good_lcHeader LcJson.hered_false lib f).exact j,
    (LcJson.good_bootstrap LcJson.hered_false lib f).exact j, (LcJson.good_update lib f).exact j,
    (LcJson.good_finality lib f).exact j, (LcJson.good_optimistic lib f).exact j,
    (LcJson.good_store LcJson.hered_false lib).exact j,
    (LcJson.good_tagged LcJson.hered_96 (LcJson.good_finality lib)).exact j,
    (LcJson.good_tagged LcJson.hered_96 (LcJson.good_optimistic lib)).exact j⟩

/-- What is written stands for the data, so that reading it gives them back. -/
theorem C105_round_trip (lib : Lib) (f : Fork) :
    (∀ h, (LcJson.header lib).de ((LcJson.header lib).ser h) = .ok h) ∧
    (∀ h, (LcJson.lcHeader lib f).de ((LcJson.lcHeader lib f).ser h) = .ok h) ∧
    (∀ x, (LcJson.bootstrap lib f).de ((LcJson.bootstrap lib f).ser x) = .ok x) ∧
    (∀ x, (LcJson.update lib f).de ((LcJson.update lib f).ser x) = .ok x) ∧
    (∀ x, (LcJson.finality lib f).de ((LcJson.finality lib f).ser x) = .ok x) ∧
    (∀ x, (LcJson.optimistic lib f).de ((LcJson.optimistic lib f).ser x) = .ok x) ∧
    (∀ x, (LcJson.store lib).de ((LcJson.store lib).ser x) = .ok x) ∧
    (∀ x, (LcJson.tagged (LcJson.finality lib)).de ((LcJson.tagged (LcJson.finality lib)).ser x) = .ok x) ∧
    (∀ x, (LcJson.tagged (LcJson.optimistic lib)).de ((LcJson.tagged (LcJson.optimistic lib)).ser x) = .ok x) := by
  have go : ∀ {B α} {t : LcJson.JTy α} {P : Json → α → Prop}, LcJson.Good B t P → ∀ x, t.de (t.ser x) = .ok x :=
    fun h x => (h.exact _ _).mpr (h.writes x)
  exact ⟨go (LcJson.good_header LcJson.hered_false lib), go (LcJson.good_lcHeader LcJson.hered_false lib f),
    go (LcJson.good_bootstrap LcJson.hered_false lib f), go (LcJson.good_update lib f), go (LcJson.good_finality lib f),
    go (LcJson.good_optimistic lib f), go (LcJson.good_store LcJson.hered_false lib),
    go (LcJson.good_tagged LcJson.hered_96 (LcJson.good_finality lib)),
    go (LcJson.good_tagged LcJson.hered_96 (LcJson.good_optimistic lib))⟩

/-- The names of the fields of a written document, in their order. -/
theorem C105_written (lib : Lib) (f : Fork) :
    (∀ h, ∃ vs : List Json, (LcJson.header lib).ser h =
      .obj ([chars% "slot", chars% "proposer_index", chars% "parent_root", chars% "state_root", chars% "body_root"].zip vs)) ∧
    (∀ x, ∃ vs : List Json, (LcJson.bootstrap lib f).ser x =
      .obj ([chars% "header", chars% "current_sync_committee", chars% "current_sync_committee_branch"].zip vs)) ∧
    (∀ x, ∃ vs : List Json, (LcJson.finality lib f).ser x =
      .obj ([chars% "attested_header", chars% "finalized_header", chars% "finality_branch", chars% "sync_aggregate",
        chars% "signature_slot"].zip vs)) ∧
    (∀ x, ∃ vs : List Json, (LcJson.optimistic lib f).ser x =
      .obj ([chars% "attested_header", chars% "sync_aggregate", chars% "signature_slot"].zip vs)) :=
  ⟨fun _ => ⟨_, rfl⟩, fun _ => ⟨_, rfl⟩, fun _ => ⟨_, rfl⟩, fun _ => ⟨_, rfl⟩⟩

/-- The order of the fields of an object makes no difference. -/
theorem C105_order (lib : Lib) (f : Fork) (ms ms' : List (List Char × Json)) (hp : ms.Perm ms') :
    (∀ h, (LcJson.header lib).de (.obj ms) = .ok h → (LcJson.header lib).de (.obj ms') = .ok h) ∧
    (∀ x, (LcJson.bootstrap lib f).de (.obj ms) = .ok x → (LcJson.bootstrap lib f).de (.obj ms') = .ok x) ∧
    (∀ x, (LcJson.update lib f).de (.obj ms) = .ok x → (LcJson.update lib f).de (.obj ms') = .ok x) ∧
    (∀ x, (LcJson.finality lib f).de (.obj ms) = .ok x → (LcJson.finality lib f).de (.obj ms') = .ok x) ∧
    (∀ x, (LcJson.optimistic lib f).de (.obj ms) = .ok x → (LcJson.optimistic lib f).de (.obj ms') = .ok x) ∧
    (∀ x, (LcJson.store lib).de (.obj ms) = .ok x → (LcJson.store lib).de (.obj ms') = .ok x) := by
  obtain ⟨a1, _, a2, a3, a4, a5, a6, _⟩ := C105_reads lib f (.obj ms)
  obtain ⟨b1, _, b2, b3, b4, b5, b6, _⟩ := C105_reads lib f (.obj ms')
  exact ⟨fun x h => (b1 x).mpr (LcJson.isObject_perm hp ((a1 x).mp h)), fun x h => (b2 x).mpr (LcJson.isObject_perm hp ((a2 x).mp h)),
    fun x h => (b3 x).mpr (LcJson.isObject_perm hp ((a3 x).mp h)), fun x h => (b4 x).mpr (LcJson.isObject_perm hp ((a4 x).mp h)),
    fun x h => (b5 x).mpr (LcJson.isObject_perm hp ((a5 x).mp h)), fun x h => (b6 x).mpr (LcJson.isObject_perm hp ((a6 x).mp h))⟩

/-- What the answers of a provider give: one bootstrap, finality or optimistic update, or the updates of a list in their order. -/
theorem C105_answers (lib : Lib) (f : Fork) (j : Json) :
    (∀ x, LcJson.response (LcJson.bootstrap lib f) j = .ok x ↔ AnswerJson (BootstrapJson lib f) j x) ∧
    (∀ x, LcJson.response (LcJson.finality lib f) j = .ok x ↔ AnswerJson (FinalityJson lib f) j x) ∧
    (∀ x, LcJson.response (LcJson.optimistic lib f) j = .ok x ↔ AnswerJson (OptimisticJson lib f) j x) ∧
    (∀ xs, LcJson.responses (LcJson.update lib f) j = .ok xs ↔ IsArray (AnswerJson (UpdateJson lib f)) j xs) :=
  ⟨fun x => LcJson.response_ok LcJson.hered_false (LcJson.good_bootstrap LcJson.hered_false lib f) j x,
    fun x => LcJson.response_ok LcJson.hered_96 (LcJson.good_finality lib f) j x,
    fun x => LcJson.response_ok LcJson.hered_96 (LcJson.good_optimistic lib f) j x,
    fun xs => LcJson.responses_ok LcJson.hered_96 (LcJson.good_update lib f) j xs⟩

/-- Reading never panics for headers, bootstraps and stores, and for the rest only if there is a signature of other than 96 bytes
in the document. -/
theorem C105_abort_partial (lib : Lib) (f : Fork) (j : Json) :
    (LcJson.header lib).de j ≠ .panic ∧ (LcJson.bootstrap lib f).de j ≠ .panic ∧ (LcJson.store lib).de j ≠ .panic ∧
    LcJson.response (LcJson.bootstrap lib f) j ≠ .panic ∧
    ((LcJson.update lib f).de j = .panic → OtherThan96 j) ∧
    ((LcJson.finality lib f).de j = .panic → OtherThan96 j) ∧
    ((LcJson.optimistic lib f).de j = .panic → OtherThan96 j) ∧
    ((LcJson.tagged (LcJson.finality lib)).de j = .panic → OtherThan96 j) ∧
    ((LcJson.tagged (LcJson.optimistic lib)).de j = .panic → OtherThan96 j) ∧
    (LcJson.response (LcJson.finality lib f) j = .panic → OtherThan96 j) ∧
    (LcJson.response (LcJson.optimistic lib f) j = .panic → OtherThan96 j) ∧
    (LcJson.responses (LcJson.update lib f) j = .panic → OtherThan96 j) :=
  ⟨fun h => (LcJson.good_header LcJson.hered_false lib).panics j h,
    fun h => (LcJson.good_bootstrap LcJson.hered_false lib f).panics j h,
    fun h => (LcJson.good_store LcJson.hered_false lib).panics j h,
    fun h => LcJson.response_panic LcJson.hered_false (LcJson.good_bootstrap LcJson.hered_false lib f) h,
    (LcJson.good_update lib f).panics j, (LcJson.good_finality lib f).panics j, (LcJson.good_optimistic lib f).panics j,
    (LcJson.good_tagged LcJson.hered_96 (LcJson.good_finality lib)).panics j,
    (LcJson.good_tagged LcJson.hered_96 (LcJson.good_optimistic lib)).panics j,
    fun h => LcJson.response_panic LcJson.hered_96 (LcJson.good_finality lib f) h,
    fun h => LcJson.response_panic LcJson.hered_96 (LcJson.good_optimistic lib f) h,
    fun h => LcJson.responses_panic LcJson.hered_96 (LcJson.good_update lib f) h⟩

/-- **Violation.** An otherwise right update whose signature has another number of bytes makes reading panic, also as an item of a
provider's answer: `header`, `committee` and so on are any documents for the other fields. -/
theorem C105_signature_violated (lib : Lib) (f : Fork) (x : Update f) (bits : Json) (sig : Json) (bs : Bytes)
    (header committee branch finalized finality : Json)
    (h1 : LcHeaderJson lib f header x.attested) (h2 : CommitteeJson committee x.nextSyncCommittee)
    (h3 : IsArray (IsWord lib) branch x.nextBranch.1) (h4 : LcHeaderJson lib f finalized x.finalized)
    (h5 : IsArray (IsWord lib) finality x.finalityBranch.1) (h6 : IsHex bits x.aggregate.bits.1) (hs : IsAnyHex sig bs)
    (hl : bs.length ≠ 96) (slot : Json) :
    (LcJson.update lib f).de (.obj [(chars% "attested_header", header), (chars% "next_sync_committee", committee),
      (chars% "next_sync_committee_branch", branch), (chars% "finalized_header", finalized), (chars% "finality_branch", finality),
      (chars% "sync_aggregate", .obj [(chars% "sync_committee_bits", bits), (chars% "sync_committee_signature", sig)]),
      (chars% "signature_slot", slot)]) = .panic ∧
    LcJson.responses (LcJson.update lib f) (.arr [.obj [(chars% "data",
      .obj [(chars% "attested_header", header), (chars% "next_sync_committee", committee),
      (chars% "next_sync_committee_branch", branch), (chars% "finalized_header", finalized), (chars% "finality_branch", finality),
      (chars% "sync_aggregate", .obj [(chars% "sync_committee_bits", bits), (chars% "sync_committee_signature", sig)]),
      (chars% "signature_slot", slot)])]]) = .panic := by
  have hsig : LcJson.signature.de sig = .panic := by
    obtain ⟨c, ds, hc, hd, rfl⟩ := hs
    have := (LcJson.anyHex_iff ('0' :: c :: ds) bs).mpr ⟨c, ds, hc, hd, rfl⟩
    simp only [LcJson.signature, this, LcJson.ofExcept, Res.bind]
    rw [dif_neg hl]
  have hagg : LcJson.syncAggregate.de (.obj [(chars% "sync_committee_bits", bits), (chars% "sync_committee_signature", sig)])
      = .panic := by
    have e : LcJson.syncAggregate.de (.obj [(chars% "sync_committee_bits", bits), (chars% "sync_committee_signature", sig)]) =
        ((((LcJson.hexFixedVec 64).de bits).bind fun a => ((LcJson.signature.de sig).bind fun b =>
          (Res.ok ()).map fun c => (b, c)).map fun b => (a, b)).map fun (a, b, _) => ⟨a, b⟩) := rfl
    rw [e, ((LcJson.good_hexFixedVec (B := fun _ => False) 64).exact _ _).mpr h6, hsig]
    rfl
  have hu : (LcJson.update lib f).de (.obj [(chars% "attested_header", header), (chars% "next_sync_committee", committee),
      (chars% "next_sync_committee_branch", branch), (chars% "finalized_header", finalized), (chars% "finality_branch", finality),
      (chars% "sync_aggregate", .obj [(chars% "sync_committee_bits", bits), (chars% "sync_committee_signature", sig)]),
      (chars% "signature_slot", slot)]) = .panic := by
    have e : (LcJson.update lib f).de (.obj [(chars% "attested_header", header), (chars% "next_sync_committee", committee),
        (chars% "next_sync_committee_branch", branch), (chars% "finalized_header", finalized), (chars% "finality_branch", finality),
        (chars% "sync_aggregate", .obj [(chars% "sync_committee_bits", bits), (chars% "sync_committee_signature", sig)]),
        (chars% "signature_slot", slot)]) =
        (((LcJson.lcHeader lib f).de header).bind fun a => ((LcJson.syncCommittee.de committee).bind fun b =>
          (((LcJson.vector (LcJson.word lib) (committeeBranchLen f)).de branch).bind fun c =>
          (((LcJson.lcHeader lib f).de finalized).bind fun d =>
          (((LcJson.vector (LcJson.word lib) (finalityBranchLen f)).de finality).bind fun e =>
          ((LcJson.syncAggregate.de (.obj [(chars% "sync_committee_bits", bits), (chars% "sync_committee_signature", sig)])).bind
            fun g => (((LcJson.u64 lib).de slot).bind fun h => (Res.ok ()).map fun i => (h, i)).map fun i => (g, i)).map
            fun i => (e, i)).map fun i => (d, i)).map fun i => (c, i)).map fun i => (b, i)).map fun i => (a, i)).map
          fun (a, b, c, d, e, g, h, _) => (⟨a, b, c, d, e, g, h⟩ : Update f) := rfl
    rw [e, ((LcJson.good_lcHeader LcJson.hered_false lib f).exact _ _).mpr h1,
      ((LcJson.good_committee LcJson.hered_false).exact _ _).mpr h2,
      ((LcJson.good_vector LcJson.hered_false (LcJson.good_word lib) _).exact _ _).mpr h3,
      ((LcJson.good_lcHeader LcJson.hered_false lib f).exact _ _).mpr h4,
      ((LcJson.good_vector LcJson.hered_false (LcJson.good_word lib) _).exact _ _).mpr h5, hagg]
    rfl
  refine ⟨hu, ?_⟩
  have e : ∀ d, LcJson.responses (LcJson.update lib f) (.arr [.obj [(chars% "data", d)]]) =
      ((((Res.ok none).bind fun a => ((Res.ok none).bind fun b => ((Res.ok none).bind fun c =>
        (((LcJson.update lib f).de d).bind fun x => (Res.ok ()).map fun u => (x, u)).map fun r => (c, r)).map
        fun r => (b, r)).map fun r => ((a : Option (List Char)), (r : Option Bool × Option Bool × Update f × Unit))).map id).map
        fun y => y.2.2.2.1).bind fun x => (Res.ok []).map fun xs => x :: xs := fun _ => rfl
  rw [e, hu]
  rfl

/-- **Violation.** A committee is read whatever the length of its aggregate key is: the key is cut or filled up with zeros. -/
theorem C105_keys_violated (x : SyncCommittee) (keys key : Json) (bs : Bytes) (hk : IsArray IsKey keys x.pubkeys.1)
    (hb : IsAnyHex key bs) :
    ∃ y, LcJson.syncCommittee.de (.obj [(chars% "pubkeys", keys), (chars% "aggregate_pubkey", key)]) = .ok y ∧
      y.pubkeys = x.pubkeys ∧ (bs.length < 48 → y.aggregatePubkey.1 = bs ++ List.replicate (48 - bs.length) 0) ∧
      (48 ≤ bs.length → y.aggregatePubkey.1 = bs.take 48) := by
  refine ⟨⟨x.pubkeys, LcJson.resize 48 bs⟩, ?_, rfl, ?_, ?_⟩
  · have e : LcJson.syncCommittee.de (.obj [(chars% "pubkeys", keys), (chars% "aggregate_pubkey", key)]) =
        (((LcJson.vector LcJson.pubkey 512).de keys).bind fun a => ((LcJson.pubkey.de key).bind fun b =>
          (Res.ok ()).map fun c => (b, c)).map fun b => (a, b)).map fun (a, b, _) => (⟨a, b⟩ : SyncCommittee) := rfl
    rw [e, ((LcJson.good_vector LcJson.hered_false LcJson.good_pubkey 512).exact _ _).mpr hk,
      ((LcJson.good_pubkey (B := fun _ => False)).exact _ (LcJson.resize 48 bs)).mpr ⟨bs, hb, LcJson.resize_eq bs 48⟩]
    rfl
  · intro h
    show (LcJson.resize 48 bs).1 = _
    rw [LcJson.resize_eq, List.take_append, List.take_of_length_le (by omega), List.take_replicate]
    congr 2
    omega
  · intro h
    show (LcJson.resize 48 bs).1 = _
    rw [LcJson.resize_eq, List.take_append_of_le_length h]

/-! ## Examples -/

namespace LcJsonExamples

/-- A library that takes nothing else. -/
def strict : Lib := ⟨fun _ => none, fun _ _ => none, fun _ => none⟩

def root (x : UInt8) : Json := .str ('0' :: 'x' :: Hex.hexBody Hex.digit (List.replicate 32 x))

/-- The form of the beacon API: numbers in quotes, another order of the fields, and one more field. -/
def apiHeader : Json :=
  .obj [(chars% "proposer_index", .str (chars% "77")), (chars% "slot", .str (chars% "9562271")), (chars% "extra", .null),
    (chars% "body_root", root 3), (chars% "parent_root", root 1), (chars% "state_root", root 2)]

def head : Header := ⟨9562271, 77, LcJson.wordOf ⟨List.replicate 32 1, by simp⟩, LcJson.wordOf ⟨List.replicate 32 2, by simp⟩,
  LcJson.wordOf ⟨List.replicate 32 3, by simp⟩⟩

example : (LcJson.header strict).de apiHeader = .ok head := rfl

/-- A field that is missing, and a number that is too large. -/
example : (LcJson.header strict).de (.obj [(chars% "slot", .num 4)]) = .err := rfl
example : (LcJson.u64 strict).de (.str (chars% "18446744073709551616")) = .err := rfl
example : (LcJson.u64 strict).de (.str (chars% "18446744073709551615")) = .ok 18446744073709551615 := rfl

/-- The header of Bellatrix takes no other field, a fork is named. -/
example : (LcJson.lcHeader strict .bellatrix).de (.obj [(chars% "beacon", apiHeader)]) = .ok ⟨head, ()⟩ := rfl
example : (LcJson.lcHeader strict .bellatrix).de (.obj [(chars% "beacon", apiHeader), (chars% "execution", .null)]) = .err := rfl

/-- Optimistic updates: with a signature of 96 bytes, and with one of 95. -/
def sig (n : Nat) : Json := .str ('0' :: 'x' :: Hex.hexBody Hex.digit (List.replicate n 5))
def bits : Json := .str ('0' :: 'x' :: Hex.hexBody Hex.digit (List.replicate 64 255))
def optimisticDoc (n : Nat) : Json :=
  .obj [(chars% "attested_header", .obj [(chars% "beacon", apiHeader)]),
    (chars% "sync_aggregate", .obj [(chars% "sync_committee_bits", bits), (chars% "sync_committee_signature", sig n)]),
    (chars% "signature_slot", .str (chars% "9562272"))]

example : (LcJson.optimistic strict .bellatrix).de (optimisticDoc 96) =
    .ok ⟨⟨head, ()⟩, ⟨⟨List.replicate 64 255, by simp⟩, ⟨List.replicate 96 5, by simp⟩⟩, 9562272⟩ := rfl
example : (LcJson.optimistic strict .bellatrix).de (optimisticDoc 95) = .panic := rfl
example : OtherThan96 (optimisticDoc 95) := (C105_abort_partial strict .bellatrix _).2.2.2.2.2.2.1 rfl

/-- An answer of a provider. -/
example : LcJson.response (LcJson.optimistic strict .bellatrix)
    (.obj [(chars% "version", .str (chars% "bellatrix")), (chars% "data", optimisticDoc 96)]) =
    .ok ⟨⟨head, ()⟩, ⟨⟨List.replicate 64 255, by simp⟩, ⟨List.replicate 96 5, by simp⟩⟩, 9562272⟩ := rfl

/-- The hypotheses of the violations are met by every update. -/
example (lib : Lib) (f : Fork) (x : Update f) (slot : Json) : ∃ header committee branch finalized finality,
    LcHeaderJson lib f header x.attested ∧ CommitteeJson committee x.nextSyncCommittee ∧
    IsArray (IsWord lib) branch x.nextBranch.1 ∧ LcHeaderJson lib f finalized x.finalized ∧
    IsArray (IsWord lib) finality x.finalityBranch.1 :=
  ⟨_, _, _, _, _, (LcJson.good_lcHeader LcJson.hered_false lib f).writes _, (LcJson.good_committee LcJson.hered_false).writes _,
    (LcJson.good_vector LcJson.hered_false (LcJson.good_word lib) _).writes _,
    (LcJson.good_lcHeader LcJson.hered_false lib f).writes _,
    (LcJson.good_vector LcJson.hered_false (LcJson.good_word lib) _).writes _⟩

/-- A key of one byte. -/
example : (LcJson.pubkey.de (.str (chars% "0xaa"))) = .ok ⟨0xaa :: List.replicate 47 0, by simp⟩ := rfl

end LcJsonExamples
end Verif.Props
