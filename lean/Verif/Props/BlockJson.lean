import Verif.Lemmas.BlockJson
import Verif.Lemmas.ExceptEq

/-!
# C107: the JSON of beacon blocks

A consensus provider may send the block the bridge asked for as JSON. `Props/BlockJsonSpec.lean` says which document stands for
which block of which fork. The theorems say that the readers take exactly these documents and give the block, that what is written
is read back, that the order of the fields makes no difference, that the fork of a block is found from its fields, and what the
answer of a provider gives.

As with the light client's data (C105), a signature of other than 96 bytes ends the task with a panic, wherever it stands in the
block, and public keys of any length are taken, cut or filled up to 48 bytes.
-/

namespace Verif.Props
open Verif.E2store (Res)
open Verif.JsonRpc (Json)
open Verif.BlockJson (Lib)
open Verif.HeaderValidator (Fork)
open Verif.BeaconBlock (Body Block Signed AnyBlock AnySigned)
open LcJsonSpec BlockJsonSpec
open scoped Verif.Provider

/-- Reading gives `x` for exactly the documents that stand for `x`, for each fork. -/
theorem C107_reads (lib : Lib) (f : Fork) (j : Json) :
    (∀ x, (BlockJson.signed lib f).de j = .ok x ↔ SignedJson lib f j x) ∧
    (∀ x, (BlockJson.block lib f).de j = .ok x ↔ BlockJson lib f j x) ∧
    (∀ x, (BlockJson.body lib f).de j = .ok x ↔ BodyJson lib f j x) ∧
    (∀ x, (BlockJson.payloadBellatrix lib).de j = .ok x ↔ PayloadBellatrixJson lib j x) ∧
    (∀ x, (BlockJson.payloadCapella lib).de j = .ok x ↔ PayloadCapellaJson lib j x) ∧
    (∀ x, (BlockJson.payloadDeneb lib).de j = .ok x ↔ PayloadDenebJson lib j x) ∧
    (∀ x, (BlockJson.executionRequests lib).de j = .ok x ↔ ExecutionRequestsJson lib j x) :=
  ⟨(BlockJson.good_signed lib f).exact j, (BlockJson.good_block lib f).exact j, (BlockJson.good_body lib f).exact j,
    (BlockJson.good_payloadBellatrix lib).exact j, (BlockJson.good_payloadCapella lib).exact j,
    (BlockJson.good_payloadDeneb lib).exact j, (BlockJson.good_executionRequests lib).exact j⟩

/-- What is written is read back. -/
theorem C107_round_trip (lib : Lib) (f : Fork) :
    (∀ x, (BlockJson.signed lib f).de ((BlockJson.signed lib f).ser x) = .ok x) ∧
    (∀ x, (BlockJson.block lib f).de ((BlockJson.block lib f).ser x) = .ok x) ∧
    (∀ x, (BlockJson.body lib f).de ((BlockJson.body lib f).ser x) = .ok x) := by
  have go : ∀ {B α} {t : LcJson.JTy α} {P : Json → α → Prop}, LcJson.Good B t P → ∀ x, t.de (t.ser x) = .ok x :=
    fun h x => (h.exact _ _).mpr (h.writes x)
  exact ⟨go (BlockJson.good_signed lib f), go (BlockJson.good_block lib f), go (BlockJson.good_body lib f)⟩

/-- The readers that do not know the fork find it: they give a block of fork `f` for exactly the documents that stand for one. So
no document stands for blocks of two forks, and what is written is read back with its fork. -/
theorem C107_fork (lib : Lib) (j : Json) :
    (∀ x : AnySigned, (BlockJson.untagged (BlockJson.signed lib)).de j = .ok x ↔ SignedJson lib x.1 j x.2) ∧
    (∀ x : AnyBlock, (BlockJson.untagged (BlockJson.block lib)).de j = .ok x ↔ BlockJson lib x.1 j x.2) ∧
    (∀ x y : AnySigned, SignedJson lib x.1 j x.2 → SignedJson lib y.1 j y.2 → x = y) ∧
    (∀ x : AnySigned, (BlockJson.untagged (BlockJson.signed lib)).de ((BlockJson.untagged (BlockJson.signed lib)).ser x) = .ok x) ∧
    (∀ x : AnyBlock, (BlockJson.untagged (BlockJson.block lib)).de ((BlockJson.untagged (BlockJson.block lib)).ser x) = .ok x) := by
  have h1 := BlockJson.untagged_exact (BlockJson.good_signed lib) (BlockJson.signed_err lib)
  have h2 := BlockJson.untagged_exact (BlockJson.good_block lib) (BlockJson.block_err lib)
  refine ⟨h1 j, h2 j, ?_, fun x => (h1 _ x).mpr ((BlockJson.good_signed lib x.1).writes x.2),
    fun x => (h2 _ x).mpr ((BlockJson.good_block lib x.1).writes x.2)⟩
  intro x y hx hy
  have ex := (h1 j x).mpr hx
  rw [(h1 j y).mpr hy] at ex
  exact (Res.ok.inj ex).symm

/-- The order of the fields of an object makes no difference. -/
theorem C107_order (lib : Lib) (f : Fork) (ms ms' : List (List Char × Json)) (hp : ms.Perm ms') :
    (∀ x, (BlockJson.signed lib f).de (.obj ms) = .ok x → (BlockJson.signed lib f).de (.obj ms') = .ok x) ∧
    (∀ x, (BlockJson.block lib f).de (.obj ms) = .ok x → (BlockJson.block lib f).de (.obj ms') = .ok x) ∧
    (∀ x, (BlockJson.body lib f).de (.obj ms) = .ok x → (BlockJson.body lib f).de (.obj ms') = .ok x) := by
  obtain ⟨a1, a2, a3, _⟩ := C107_reads lib f (.obj ms)
  obtain ⟨b1, b2, b3, _⟩ := C107_reads lib f (.obj ms')
  refine ⟨fun x h => (b1 x).mpr (LcJson.isObject_perm hp ((a1 x).mp h)),
    fun x h => (b2 x).mpr (LcJson.isObject_perm hp ((a2 x).mp h)), fun x h => (b3 x).mpr ?_⟩
  have := (a3 x).mp h
  cases f <;> exact LcJson.isObject_perm hp this

/-- What the answer of a provider gives: the block that its `data` stand for. -/
theorem C107_answer (lib : Lib) (j : Json) (x : Signed .electra) :
    BlockJson.answer lib j = .ok x ↔ AnswerJson (SignedJson lib .electra) j x :=
  LcJson.response_ok LcJson.hered_true (BlockJson.good_signed lib .electra) j x

/-- Reading panics only if there is a signature of other than 96 bytes in the document. -/
theorem C107_abort_partial (lib : Lib) (f : Fork) (j : Json) :
    ((BlockJson.signed lib f).de j = .panic → Wrong j) ∧ ((BlockJson.block lib f).de j = .panic → Wrong j) ∧
    ((BlockJson.body lib f).de j = .panic → Wrong j) ∧ ((BlockJson.untagged (BlockJson.signed lib)).de j = .panic → Wrong j) ∧
    (BlockJson.answer lib j = .panic → Wrong j) := by
  refine ⟨BlockJson.aborts_signedBlock lib f j, BlockJson.aborts_block lib f j, BlockJson.aborts_body lib f j, ?_,
    BlockJson.aborts_response (BlockJson.aborts_signedBlock lib .electra)⟩
  have hor : ∀ {α} (r next : Res α), BlockJson.orElse r next = .panic → r = .panic ∨ next = .panic := by
    intro α r next h
    cases r <;> simp_all [BlockJson.orElse]
  intro h
  simp only [BlockJson.untagged] at h
  rcases hor _ _ h with h | h
  · exact BlockJson.aborts_signedBlock lib _ j (LcJson.map_panic.mp h)
  rcases hor _ _ h with h | h
  · exact BlockJson.aborts_signedBlock lib _ j (LcJson.map_panic.mp h)
  rcases hor _ _ h with h | h
  · exact BlockJson.aborts_signedBlock lib _ j (LcJson.map_panic.mp h)
  · exact BlockJson.aborts_signedBlock lib _ j (LcJson.map_panic.mp h)

/-- **Violation.** A right block with a signature of another length makes reading panic, also in a provider's answer and if the
fork is not known. -/
theorem C107_signature_violated (lib : Lib) (f : Fork) (message sig : Json) (x : Block f) (bs : Bytes)
    (hm : BlockJson lib f message x) (hs : IsAnyHex sig bs) (hl : bs.length ≠ 96) :
    (BlockJson.signed lib f).de (.obj [(chars% "message", message), (chars% "signature", sig)]) = .panic ∧
    (BlockJson.untagged (BlockJson.signed lib)).de (.obj [(chars% "message", message), (chars% "signature", sig)]) = .panic ∧
    (f = .electra → BlockJson.answer lib
      (.obj [(chars% "data", .obj [(chars% "message", message), (chars% "signature", sig)])]) = .panic) := by
  have hsig : LcJson.signature.de sig = .panic := by
    obtain ⟨c, ds, hc, hd, rfl⟩ := hs
    have := (LcJson.anyHex_iff ('0' :: c :: ds) bs).mpr ⟨c, ds, hc, hd, rfl⟩
    simp only [LcJson.signature, this, LcJson.ofExcept, Res.bind]
    rw [dif_neg hl]
  have e : ∀ f', (BlockJson.signed lib f').de (.obj [(chars% "message", message), (chars% "signature", sig)]) =
      (((BlockJson.block lib f').de message).bind fun a => ((LcJson.signature.de sig).bind fun b =>
        (Res.ok ()).map fun c => (b, c)).map fun b => (a, b)).map fun (a, b, _) => (⟨a, b⟩ : Signed f') := fun _ => rfl
  have h1 : (BlockJson.signed lib f).de (.obj [(chars% "message", message), (chars% "signature", sig)]) = .panic := by
    rw [e, ((BlockJson.good_block lib f).exact _ _).mpr hm, hsig]
    rfl
  refine ⟨h1, ?_, ?_⟩
  · have hb : ∀ f', BlockJson.before f' f = true →
        (BlockJson.signed lib f').de (.obj [(chars% "message", message), (chars% "signature", sig)]) = .err := by
      intro f' h
      rw [e, BlockJson.block_err lib f f' h _ _ hm]
      rfl
    simp only [BlockJson.untagged]
    cases f with
    | bellatrix => rw [h1]; rfl
    | capella => rw [hb .bellatrix rfl, h1]; rfl
    | deneb => rw [hb .bellatrix rfl, hb .capella rfl, h1]; rfl
    | electra => rw [hb .bellatrix rfl, hb .capella rfl, hb .deneb rfl, h1]; rfl
  · rintro rfl
    have e : ∀ d, BlockJson.answer lib (.obj [(chars% "data", d)]) =
        (((Res.ok none).bind fun a => ((Res.ok none).bind fun b => ((Res.ok none).bind fun c =>
          (((BlockJson.signed lib .electra).de d).bind fun x => (Res.ok ()).map fun u => (x, u)).map fun r => (c, r)).map
          fun r => (b, r)).map fun r => ((a : Option (List Char)), (r : Option Bool × Option Bool × Signed .electra × Unit))).map
          id).map fun y => y.2.2.2.1 := fun _ => rfl
    rw [e, h1]
    rfl

/-- **Violation.** A withdrawal request is read whatever the length of its key is. -/
theorem C107_keys_violated (lib : Lib) (x : BeaconBlock.WithdrawalRequest) (address key amount : Json) (bs : Bytes)
    (ha : IsBytes lib.toLib 20 address x.sourceAddress) (hb : IsAnyHex key bs) (hn : IsNumber lib.toLib amount x.amount) :
    ∃ y, (BlockJson.withdrawalRequest lib).de
        (.obj [(chars% "source_address", address), (chars% "validator_pubkey", key), (chars% "amount", amount)]) = .ok y ∧
      y.validatorPubkey.1 = (bs ++ List.replicate 48 0).take 48 := by
  refine ⟨⟨x.sourceAddress, LcJson.resize 48 bs, x.amount⟩, ?_, LcJson.resize_eq bs 48⟩
  have e : (BlockJson.withdrawalRequest lib).de
      (.obj [(chars% "source_address", address), (chars% "validator_pubkey", key), (chars% "amount", amount)]) =
      (((LcJson.fixed lib.toLib 20).de address).bind fun a => ((LcJson.pubkey.de key).bind fun b =>
        (((LcJson.u64 lib.toLib).de amount).bind fun c => (Res.ok ()).map fun d => (c, d)).map fun c => (b, c)).map
        fun b => (a, b)).map fun (a, b, c, _) => (⟨a, b, c⟩ : BeaconBlock.WithdrawalRequest) := rfl
  rw [e, ((LcJson.good_fixed (B := fun _ => False) lib.toLib 20).exact _ _).mpr ha,
    ((LcJson.good_pubkey (B := fun _ => False)).exact _ (LcJson.resize 48 bs)).mpr ⟨bs, hb, LcJson.resize_eq bs 48⟩,
    ((LcJson.good_u64 (B := fun _ => False) lib.toLib).exact _ _).mpr hn]
  rfl

/-! ## Examples -/

namespace BlockJsonExamples

/-- A library that takes nothing else. -/
def strict : Lib := ⟨⟨fun _ => none, fun _ _ => none, fun _ => none⟩, fun _ => none⟩

def hex (n : Nat) (x : UInt8) : Json := .str ('0' :: 'x' :: Hex.hexBody Hex.digit (List.replicate n x))

def payload : List (List Char × Json) :=
  [(chars% "parent_hash", hex 32 1), (chars% "fee_recipient", hex 20 2), (chars% "state_root", hex 32 3),
    (chars% "receipts_root", hex 32 4), (chars% "logs_bloom", hex 256 0), (chars% "prev_randao", hex 32 5),
    (chars% "block_number", .str (chars% "21000000")), (chars% "gas_limit", .str (chars% "30000000")),
    (chars% "gas_used", .str (chars% "7")), (chars% "timestamp", .str (chars% "1700000000")), (chars% "extra_data", hex 2 6),
    (chars% "base_fee_per_gas", .str (chars% "1000000007")), (chars% "block_hash", hex 32 7),
    (chars% "transactions", .arr [.str (chars% "0x02f8"), .str (chars% "0x")])]

def attestation : Json :=
  .obj [(chars% "aggregation_bits", .str (chars% "0x0b")),
    (chars% "data", .obj [(chars% "slot", .str (chars% "5")), (chars% "index", .str (chars% "0")),
      (chars% "beacon_block_root", hex 32 1), (chars% "source", .obj [(chars% "epoch", .str (chars% "1")), (chars% "root", hex 32 2)]),
      (chars% "target", .obj [(chars% "epoch", .str (chars% "2")), (chars% "root", hex 32 3)])]),
    (chars% "signature", hex 96 9)]

def bodyFields (extra : List (List Char × Json)) (payload : List (List Char × Json)) : List (List Char × Json) :=
  [(chars% "randao_reveal", hex 96 1),
    (chars% "eth1_data", .obj [(chars% "deposit_root", hex 32 1), (chars% "deposit_count", .str (chars% "3")),
      (chars% "block_hash", hex 32 2)]),
    (chars% "graffiti", hex 32 8), (chars% "proposer_slashings", .arr []), (chars% "attester_slashings", .arr []),
    (chars% "attestations", .arr [attestation]), (chars% "deposits", .arr []), (chars% "voluntary_exits", .arr []),
    (chars% "sync_aggregate", .obj [(chars% "sync_committee_bits", hex 64 255), (chars% "sync_committee_signature", hex 96 2)]),
    (chars% "execution_payload", .obj payload)] ++ extra

def doc (n : Nat) (extra payload : List (List Char × Json)) : Json :=
  .obj [(chars% "message", .obj [(chars% "slot", .str (chars% "6000000")), (chars% "proposer_index", .str (chars% "77")),
      (chars% "parent_root", hex 32 1), (chars% "state_root", hex 32 2), (chars% "body", .obj (bodyFields extra payload))]),
    (chars% "signature", hex n 3)]

def capellaExtra : List (List Char × Json) := [(chars% "bls_to_execution_changes", .arr [])]
def capellaPayload : List (List Char × Json) := payload ++ [(chars% "withdrawals", .arr [.obj [(chars% "index", .str (chars% "1")),
  (chars% "validator_index", .str (chars% "2")), (chars% "address", hex 20 1), (chars% "amount", .str (chars% "3"))]])]

/-- What is looked at below: the fork, the slot, and parts of the payload. -/
def forkOf : Res AnySigned → Option (Fork × Nat)
  | .ok x => some (x.1, x.2.message.slot.toNat)
  | _ => none

def isPanic {α} : Res α → Bool
  | .panic => true
  | _ => false

/-- A block of Bellatrix, one of Capella, one with a field too many, and one with a signature of 95 bytes. -/
example : forkOf ((BlockJson.untagged (BlockJson.signed strict)).de (doc 96 [] payload)) = some (.bellatrix, 6000000) := by
  decide +kernel
example : forkOf ((BlockJson.untagged (BlockJson.signed strict)).de (doc 96 capellaExtra capellaPayload)) =
    some (.capella, 6000000) := by decide +kernel
example : forkOf ((BlockJson.untagged (BlockJson.signed strict)).de (doc 96 capellaExtra payload)) = none := by decide +kernel
example : isPanic ((BlockJson.untagged (BlockJson.signed strict)).de (doc 95 capellaExtra capellaPayload)) = true := by
  decide +kernel

/-- The bits of the attestation: 0x0b is the ones of bits 0 and 1, a zero, and the end. -/
example : IsBits (.str (chars% "0x0b")) [true, true, false] :=
  (LcJson.prefixed_iff _ _).mp (by decide +kernel : LcJson.prefixedHex (.str (chars% "0x0b")) = .ok [0x0b])

/-- The hypotheses of the violations are met by every block. -/
example (lib : Lib) (f : Fork) (x : Block f) : ∃ message, BlockJson lib f message x := ⟨_, (BlockJson.good_block lib f).writes x⟩
example : IsAnyHex (.str (chars% "0xaa")) [0xaa] := (LcJson.anyHex_iff _ _).mp (by decide +kernel)

end BlockJsonExamples
end Verif.Props
