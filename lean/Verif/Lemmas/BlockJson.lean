import Verif.Props.BlockJsonSpec
import Verif.Lemmas.LcJson
import Verif.Lemmas.BeaconBlockLayout

/-! Helper lemmas about the JSON of beacon blocks. -/

namespace Verif.BlockJson
open Verif.E2store (Res)
open Verif.SszT (Vec BList BytesN toBList)
open Verif.JsonRpc (Json)
open Verif.HeaderValidator (Fork)
open Verif.BeaconBlock (Body Block Signed)
open Verif.LcJson hiding Lib good_header good_bootstrap good_update good_finality good_optimistic good_store good_tagged
open Verif.Props.BridgeSpec (Numeral)
open Verif.Props.LcJsonSpec
open Verif.Props.BlockJsonSpec
open scoped Verif.Provider

/-! ## Values -/

variable {B : Json → Prop}

theorem good_quoted (lib : Lib) : Good B (quoted lib) (IsQuoted lib) where
  exact j x := by
    unfold IsQuoted
    cases j with
    | str s =>
      simp only [quoted]
      cases hp : HeadGen.parseU64 s with
      | some n =>
        have hN := (BridgeCli.parseU64_iff s n).mp hp
        have hn : n < 2 ^ 64 := by obtain ⟨_, _, _, _, h, _⟩ := hN; exact h
        simp only [Res.ok.injEq]
        rw [u64_nat n hn]
        constructor
        · rintro rfl
          exact .inl ⟨s, rfl, hN⟩
        · rintro (⟨t, h, ht⟩ | ⟨h, _⟩)
          · cases h
            have := (BridgeCli.parseU64_iff s _).mpr ht
            rw [hp] at this
            exact Option.some.inj this
          · exact absurd hN (h s n rfl)
      | none =>
        simp only [ofOption_ok]
        have hno : ∀ t m, Json.str s = .str t → ¬ Numeral t m := by
          intro t m h ht
          cases h
          rw [(BridgeCli.parseU64_iff s _).mpr ht] at hp
          cases hp
        exact ⟨fun h => .inr ⟨hno, h⟩, fun h => h.elim (fun ⟨t, h, ht⟩ => absurd ht (hno t _ h)) (·.2)⟩
    | null | bool _ | arr _ | obj _ | num _ => simp [quoted, ofOption_ok]
  writes x := .inl ⟨_, rfl, BridgeCli.numeral_decimal _ x.toNat_lt⟩
  panics j h := by
    exfalso
    revert h
    cases j with
    | str s => simp only [quoted]; split <;> simp [ofOption_panic]
    | null | bool _ | arr _ | obj _ | num _ => simp [quoted, ofOption_panic]

theorem good_list {α} {t : JTy α} {P : Json → α → Prop} (ht : Good (fun _ => True) t P) (n : Nat) :
    Good (fun _ => True) (boundedList t n) (fun j x => IsArray P j x.1) where
  exact j x := by
    unfold IsArray
    cases j with
    | arr js =>
      simp only [boundedList, bind_ok, readAll_ok ht.exact, Json.arr.injEq]
      constructor
      · rintro ⟨xs, h, hx⟩
        split at hx
        · cases hx; exact ⟨js, rfl, h⟩
        · cases hx
      · rintro ⟨js', rfl, h⟩
        exact ⟨_, h, by rw [dif_pos x.2]⟩
    | null | bool _ | str _ | obj _ | num _ => simp [boundedList]
  writes x := ⟨_, rfl, each_writes ht x.1⟩
  panics _ _ := trivial

theorem good_bitList (n : Nat) : Good B (bitList n) (fun j x => IsBits j x.1) where
  exact j x := by
    unfold IsBits
    simp only [bitList, bind_ok, ofOption_ok, prefixed_iff]
    constructor
    · rintro ⟨bs, h, hx⟩
      have := (TreeHash.sound_bitlist n).canon bs x hx
      rw [BeaconBlock.enc_bitlist] at this
      rw [this]
      exact h
    · intro h
      refine ⟨_, h, ?_⟩
      rw [← BeaconBlock.enc_bitlist n x]
      simp only [TreeHash.bitlist]
      rw [bitlist_roundtrip n x.1 x.2, Option.bind_some, SszT.toBList_self]
  writes x := ⟨_, hexBody_digits _, by rw [bitList]; simp only [BeaconBlock.enc_bitlist]; rfl⟩
  panics j h := by
    exfalso
    revert h
    simp [bitList, bind_panic, prefixed_panic, ofOption_panic]

theorem good_transaction : Good B transaction IsTransaction where
  exact j x := by
    unfold IsTransaction
    cases j with
    | str s =>
      simp only [transaction, map_ok, ofExcept_ok, anyHex_iff]
      constructor
      · rintro ⟨bs, h, rfl⟩; exact ⟨bs, h, rfl⟩
      · rintro ⟨bs, h, he⟩; exact ⟨bs, h, Subtype.ext he.symm⟩
    | null | bool _ | arr _ | obj _ | num _ => simp [transaction, IsAnyHex]
  writes x := ⟨x.1, ⟨'x', _, .inl rfl, hexBody_digits x.1, rfl⟩, (List.take_of_length_le x.2).symm⟩
  panics j h := by
    exfalso
    revert h
    cases j with
    | str s => simp [transaction, map_panic, ofExcept_panic]
    | null | bool _ | arr _ | obj _ | num _ => simp [transaction]

theorem good_commitment : Good B commitment (fun j x => IsAnyHex j x.1) where
  exact j x := by
    cases j with
    | str s =>
      simp only [commitment, bind_ok, ofExcept_ok, anyHex_iff, sized_ok]
      constructor
      · rintro ⟨bs, h, rfl⟩; exact h
      · intro h; exact ⟨_, h, rfl⟩
    | null | bool _ | arr _ | obj _ | num _ => simp [commitment, IsAnyHex]
  writes x := ⟨'x', _, .inl rfl, hexBody_digits x.1, rfl⟩
  panics j h := by
    exfalso
    revert h
    cases j with
    | str s => simp [commitment, bind_panic, ofExcept_panic, sized_panic]
    | null | bool _ | arr _ | obj _ | num _ => simp [commitment]

/-! ## Where panics come from -/

/-- A panic of a field: the field is there, and `Q` holds of it. -/
def PanicM {α} (r : Members α) (Q : List Char → Json → Prop) : Prop :=
  ∀ look, r.de look = .panic → ∃ n v, look n = some v ∧ n ∈ r.names ∧ Q n v

theorem panicM_nil {Q : List Char → Json → Prop} : PanicM Members.nil Q := fun _ h => by cases h

theorem panicM_cons {α β} {name : List Char} {t : JTy α} {r : Members β} {Q : List Char → Json → Prop}
    (ht : ∀ v, t.de v = .panic → Q name v) (hr : PanicM r Q) : PanicM (.cons name t r) Q := by
  intro look h
  simp only [Members.cons] at h
  cases hl : look name with
  | none => simp [hl] at h
  | some j =>
    simp only [hl, bind_panic, map_panic] at h
    rcases h with h | ⟨_, _, h⟩
    · exact ⟨name, j, hl, by simp [Members.cons], ht j h⟩
    · obtain ⟨n, v, h1, h2, h3⟩ := hr look h
      exact ⟨n, v, h1, by simp [Members.cons, h2], h3⟩

theorem struct_panic {α β} {closed : Bool} {r : Members α} {f : α → β} {g : β → α} {Q : List Char → Json → Prop} (hr : PanicM r Q)
    {j : Json} (h : (struct closed r f g).de j = .panic) :
    (∃ ms n v, j = .obj ms ∧ ms.lookup n = some v ∧ n ∈ r.names ∧ Q n v) ∨
    ∃ vs n v, j = .arr vs ∧ vs.length = r.names.length ∧ (r.names.zip vs).lookup n = some v ∧ n ∈ r.names ∧ Q n v := by
  cases j with
  | obj ms =>
    simp only [struct] at h
    split at h
    · cases h
    · split at h
      · cases h
      · obtain ⟨n, v, h1, h2, h3⟩ := hr _ (map_panic.mp h)
        exact .inl ⟨ms, n, v, rfl, h1, h2, h3⟩
  | arr vs =>
    simp only [struct] at h
    split at h
    · next hl =>
      obtain ⟨n, v, h1, h2, h3⟩ := hr _ (map_panic.mp h)
      exact .inr ⟨vs, n, v, rfl, hl, h1, h2, h3⟩
    · cases h
  | null | bool _ | str _ | num _ => simp [struct] at h

theorem zip_lookup_at {s : List Char} {v : Json} : ∀ (names : List (List Char)) (vs : List Json) (k : Nat), names.Nodup →
    names[k]? = some s → (names.zip vs).lookup s = some v → vs[k]? = some v
  | [], _, _, _, hk, _ => by simp at hk
  | _ :: _, [], _, _, _, h => by simp at h
  | n :: ns, w :: vs, 0, _, hk, h => by
    simp only [List.getElem?_cons_zero, Option.some.injEq] at hk
    subst hk
    simpa [List.lookup] using h
  | n :: ns, w :: vs, k + 1, hn, hk, h => by
    have hn' := List.nodup_cons.mp hn
    simp only [List.getElem?_cons_succ] at hk ⊢
    have : (s == n) = false := by
      rw [beq_eq_false_iff_ne]
      rintro rfl
      exact hn'.1 (List.mem_of_getElem? hk)
    simp only [List.zip_cons_cons, List.lookup, this] at h
    exact zip_lookup_at ns vs k hn'.2 hk h

/-- A panic is due to a signature of a wrong length. -/
def Aborts {α} (t : JTy α) : Prop := ∀ j, t.de j = .panic → Wrong j

theorem aborts_of {α} {t : JTy α} {P : Json → α → Prop} (h : Good (fun _ => False) t P) : Aborts t :=
  fun j hj => (h.panics j hj).elim

theorem aborts_list {α} {t : JTy α} (h : Aborts t) (n : Nat) : Aborts (boundedList t n) := by
  intro j hj
  cases j with
  | arr js =>
    simp only [boundedList, bind_panic] at hj
    rcases hj with hj | ⟨xs, _, hj⟩
    · obtain ⟨j, h1, h2⟩ := readAll_panic js hj
      exact .arr h1 (h j h2)
    · split at hj <;> cases hj
  | null | bool _ | str _ | obj _ | num _ => simp [boundedList] at hj

theorem aborts_plain {α β} {closed : Bool} {r : Members α} {f : α → β} {g : β → α} (hr : PanicM r (fun _ v => Wrong v)) :
    Aborts (struct closed r f g) := by
  intro j hj
  rcases struct_panic hr hj with ⟨ms, n, v, rfl, h1, _, h2⟩ | ⟨vs, n, v, rfl, _, h1, _, h2⟩
  · exact .obj (lookup_mem h1) h2
  · exact .arr (List.of_mem_zip (lookup_mem h1)).2 h2

theorem aborts_signed {α β} {closed : Bool} {r : Members α} {f : α → β} {g : β → α} {s : List Char} {k : Nat}
    (hr : PanicM r (fun n v => Wrong v ∨ n = s ∧ ∃ bs, IsAnyHex v bs ∧ bs.length ≠ 96)) (hn : r.names.Nodup)
    (hk : r.names[k]? = some s) (hs : s ∈ signatureNames) (hp : (r.names.length, k) ∈ places) : Aborts (struct closed r f g) := by
  intro j hj
  rcases struct_panic hr hj with ⟨ms, n, v, rfl, h1, _, h2 | ⟨rfl, bs, h2, h3⟩⟩ | ⟨vs, n, v, rfl, h0, h1, _, h2 | ⟨rfl, bs, h2, h3⟩⟩
  · exact .obj (lookup_mem h1) h2
  · exact .named (lookup_mem h1) hs h2 h3
  · exact .arr (List.of_mem_zip (lookup_mem h1)).2 h2
  · exact .placed (h0 ▸ hp) (zip_lookup_at _ _ _ hn hk h1) h2 h3

/-! ## The structures -/

theorem good_aggregate_true : Good (fun _ => True) syncAggregate AggregateJson :=
  ⟨good_aggregate.exact, good_aggregate.writes, fun _ _ => trivial⟩

theorem aborts_aggregate : Aborts syncAggregate :=
  aborts_signed (s := chars% "sync_committee_signature") (k := 1)
    (panicM_cons (fun v h => .inl (aborts_of (good_hexFixedVec 64) v h)) <|
      panicM_cons (fun v h => .inr ⟨rfl, signature_panic h⟩) <| panicM_nil)
    (show List.Nodup [chars% "sync_committee_bits", chars% "sync_committee_signature"] by decide)
    rfl (by decide) (show (2, 1) ∈ places by decide)

theorem good_eth1Data (lib : Lib) : Good (fun _ => True) (eth1Data lib) (Eth1DataJson lib) :=
  good_struct hered_true (goodm_cons (good_word lib.toLib) <| goodm_cons (good_u64 lib.toLib) <| goodm_cons (good_word lib.toLib) <| goodm_nil)
    (show List.Nodup [chars% "deposit_root", chars% "deposit_count", chars% "block_hash"] by decide)
    (fun _ => rfl) (fun _ => rfl)

theorem aborts_eth1Data (lib : Lib) : Aborts (eth1Data lib) :=
  aborts_plain (panicM_cons (fun v h => (aborts_of (good_word lib.toLib)) v h) <| panicM_cons (fun v h => (aborts_of (good_u64 lib.toLib)) v
    h) <| panicM_cons (fun v h => (aborts_of (good_word lib.toLib)) v h) <| panicM_nil)

theorem good_signedHeader (lib : Lib) : Good (fun _ => True) (signedHeader lib) (SignedHeaderJson lib) :=
  good_struct hered_true (goodm_cons (LcJson.good_header hered_true lib.toLib) <| goodm_cons (good_signature (fun _ _ _ _ => trivial)) <| goodm_nil)
    (show List.Nodup [chars% "message", chars% "signature"] by decide)
    (fun _ => rfl) (fun _ => rfl)

theorem aborts_signedHeader (lib : Lib) : Aborts (signedHeader lib) :=
  aborts_signed (s := chars% "signature") (k := 1)
    (panicM_cons (fun v h => .inl ((aborts_of (LcJson.good_header hered_false lib.toLib)) v h)) <| panicM_cons (fun v h => .inr
    ⟨rfl, signature_panic h⟩) <| panicM_nil)
    (show List.Nodup [chars% "message", chars% "signature"] by decide)
    rfl (by decide) (show (2, 1) ∈ places by decide)

theorem good_proposerSlashing (lib : Lib) : Good (fun _ => True) (proposerSlashing lib) (ProposerSlashingJson lib) :=
  good_struct hered_true (goodm_cons (good_signedHeader lib) <| goodm_cons (good_signedHeader lib) <| goodm_nil)
    (show List.Nodup [chars% "signed_header_1", chars% "signed_header_2"] by decide)
    (fun _ => rfl) (fun _ => rfl)

theorem aborts_proposerSlashing (lib : Lib) : Aborts (proposerSlashing lib) :=
  aborts_plain (panicM_cons (fun v h => (aborts_signedHeader lib) v h) <| panicM_cons (fun v h => (aborts_signedHeader lib) v h) <| panicM_nil)

theorem good_checkpoint (lib : Lib) : Good (fun _ => True) (checkpoint lib) (CheckpointJson lib) :=
  good_struct hered_true (goodm_cons (good_u64 lib.toLib) <| goodm_cons (good_word lib.toLib) <| goodm_nil)
    (show List.Nodup [chars% "epoch", chars% "root"] by decide)
    (fun _ => rfl) (fun _ => rfl)

theorem aborts_checkpoint (lib : Lib) : Aborts (checkpoint lib) :=
  aborts_plain (panicM_cons (fun v h => (aborts_of (good_u64 lib.toLib)) v h) <| panicM_cons (fun v h => (aborts_of (good_word lib.toLib)) v
    h) <| panicM_nil)

theorem good_attestationData (lib : Lib) : Good (fun _ => True) (attestationData lib) (AttestationDataJson lib) :=
  good_struct hered_true (goodm_cons (good_u64 lib.toLib) <| goodm_cons (good_u64 lib.toLib) <| goodm_cons (good_word lib.toLib) <| goodm_cons
    (good_checkpoint lib) <| goodm_cons (good_checkpoint lib) <| goodm_nil)
    (show List.Nodup [chars% "slot", chars% "index", chars% "beacon_block_root", chars% "source", chars% "target"] by decide)
    (fun _ => rfl) (fun _ => rfl)

theorem aborts_attestationData (lib : Lib) : Aborts (attestationData lib) :=
  aborts_plain (panicM_cons (fun v h => (aborts_of (good_u64 lib.toLib)) v h) <| panicM_cons (fun v h => (aborts_of (good_u64 lib.toLib)) v h)
    <| panicM_cons (fun v h => (aborts_of (good_word lib.toLib)) v h) <| panicM_cons (fun v h => (aborts_checkpoint lib) v h)
    <| panicM_cons (fun v h => (aborts_checkpoint lib) v h) <| panicM_nil)

theorem good_indexedAttestation (lib : Lib) (max : Nat) : Good (fun _ => True) (indexedAttestation lib max) (IndexedAttestationJson lib max) :=
  good_struct hered_true (goodm_cons (good_list (good_quoted lib) max) <| goodm_cons (good_attestationData lib) <| goodm_cons (good_signature (fun _ _ _
    _ => trivial)) <| goodm_nil)
    (show List.Nodup [chars% "attesting_indices", chars% "data", chars% "signature"] by decide)
    (fun _ => rfl) (fun _ => rfl)

theorem aborts_indexedAttestation (lib : Lib) (max : Nat) : Aborts (indexedAttestation lib max) :=
  aborts_signed (s := chars% "signature") (k := 2)
    (panicM_cons (fun v h => .inl ((aborts_list (aborts_of (good_quoted lib)) max) v h)) <| panicM_cons (fun v h => .inl
    ((aborts_attestationData lib) v h)) <| panicM_cons (fun v h => .inr ⟨rfl, signature_panic h⟩) <| panicM_nil)
    (show List.Nodup [chars% "attesting_indices", chars% "data", chars% "signature"] by decide)
    rfl (by decide) (show (3, 2) ∈ places by decide)

theorem good_attesterSlashing (lib : Lib) (max : Nat) : Good (fun _ => True) (attesterSlashing lib max) (AttesterSlashingJson lib max) :=
  good_struct hered_true (goodm_cons (good_indexedAttestation lib max) <| goodm_cons (good_indexedAttestation lib max) <| goodm_nil)
    (show List.Nodup [chars% "attestation_1", chars% "attestation_2"] by decide)
    (fun _ => rfl) (fun _ => rfl)

theorem aborts_attesterSlashing (lib : Lib) (max : Nat) : Aborts (attesterSlashing lib max) :=
  aborts_plain (panicM_cons (fun v h => (aborts_indexedAttestation lib max) v h) <| panicM_cons (fun v h => (aborts_indexedAttestation lib
    max) v h) <| panicM_nil)

theorem good_attestationBase (lib : Lib) : Good (fun _ => True) (attestationBase lib) (AttestationBaseJson lib) :=
  good_struct hered_true (goodm_cons (good_bitList 2048) <| goodm_cons (good_attestationData lib) <| goodm_cons (good_signature (fun _ _ _ _ =>
    trivial)) <| goodm_nil)
    (show List.Nodup [chars% "aggregation_bits", chars% "data", chars% "signature"] by decide)
    (fun _ => rfl) (fun _ => rfl)

theorem aborts_attestationBase (lib : Lib) : Aborts (attestationBase lib) :=
  aborts_signed (s := chars% "signature") (k := 2)
    (panicM_cons (fun v h => .inl ((aborts_of (good_bitList 2048)) v h)) <| panicM_cons (fun v h => .inl ((aborts_attestationData
    lib) v h)) <| panicM_cons (fun v h => .inr ⟨rfl, signature_panic h⟩) <| panicM_nil)
    (show List.Nodup [chars% "aggregation_bits", chars% "data", chars% "signature"] by decide)
    rfl (by decide) (show (3, 2) ∈ places by decide)

theorem good_attestationElectra (lib : Lib) : Good (fun _ => True) (attestationElectra lib) (AttestationElectraJson lib) :=
  good_struct hered_true (goodm_cons (good_bitList 131072) <| goodm_cons (good_attestationData lib) <| goodm_cons (good_signature (fun _ _ _ _ =>
    trivial)) <| goodm_cons (good_hexFixedVec 8) <| goodm_nil)
    (show List.Nodup [chars% "aggregation_bits", chars% "data", chars% "signature", chars% "committee_bits"] by decide)
    (fun _ => rfl) (fun _ => rfl)

theorem aborts_attestationElectra (lib : Lib) : Aborts (attestationElectra lib) :=
  aborts_signed (s := chars% "signature") (k := 2)
    (panicM_cons (fun v h => .inl ((aborts_of (good_bitList 131072)) v h)) <| panicM_cons (fun v h => .inl ((aborts_attestationData
    lib) v h)) <| panicM_cons (fun v h => .inr ⟨rfl, signature_panic h⟩) <| panicM_cons (fun v h => .inl ((aborts_of
    (good_hexFixedVec 8)) v h)) <| panicM_nil)
    (show List.Nodup [chars% "aggregation_bits", chars% "data", chars% "signature", chars% "committee_bits"] by decide)
    rfl (by decide) (show (4, 2) ∈ places by decide)

theorem good_depositData (lib : Lib) : Good (fun _ => True) (depositData lib) (DepositDataJson lib) :=
  good_struct hered_true (goodm_cons (good_pubkey) <| goodm_cons (good_word lib.toLib) <| goodm_cons (good_u64 lib.toLib) <| goodm_cons (good_signature
    (fun _ _ _ _ => trivial)) <| goodm_nil)
    (show List.Nodup [chars% "pubkey", chars% "withdrawal_credentials", chars% "amount", chars% "signature"] by decide)
    (fun _ => rfl) (fun _ => rfl)

theorem aborts_depositData (lib : Lib) : Aborts (depositData lib) :=
  aborts_signed (s := chars% "signature") (k := 3)
    (panicM_cons (fun v h => .inl ((aborts_of good_pubkey) v h)) <| panicM_cons (fun v h => .inl ((aborts_of (good_word lib.toLib))
    v h)) <| panicM_cons (fun v h => .inl ((aborts_of (good_u64 lib.toLib)) v h)) <| panicM_cons (fun v h => .inr ⟨rfl,
    signature_panic h⟩) <| panicM_nil)
    (show List.Nodup [chars% "pubkey", chars% "withdrawal_credentials", chars% "amount", chars% "signature"] by decide)
    rfl (by decide) (show (4, 3) ∈ places by decide)

theorem good_deposit (lib : Lib) : Good (fun _ => True) (deposit lib) (DepositJson lib) :=
  good_struct hered_true (goodm_cons (good_vector hered_true (good_word lib.toLib) 33) <| goodm_cons (good_depositData lib) <| goodm_nil)
    (show List.Nodup [chars% "proof", chars% "data"] by decide)
    (fun _ => rfl) (fun _ => rfl)

theorem aborts_deposit (lib : Lib) : Aborts (deposit lib) :=
  aborts_plain (panicM_cons (fun v h => (aborts_of (good_vector hered_false (good_word lib.toLib) 33)) v h) <| panicM_cons (fun v h =>
    (aborts_depositData lib) v h) <| panicM_nil)

theorem good_voluntaryExit (lib : Lib) : Good (fun _ => True) (voluntaryExit lib) (VoluntaryExitJson lib) :=
  good_struct hered_true (goodm_cons (good_u64 lib.toLib) <| goodm_cons (good_u64 lib.toLib) <| goodm_nil)
    (show List.Nodup [chars% "epoch", chars% "validator_index"] by decide)
    (fun _ => rfl) (fun _ => rfl)

theorem aborts_voluntaryExit (lib : Lib) : Aborts (voluntaryExit lib) :=
  aborts_plain (panicM_cons (fun v h => (aborts_of (good_u64 lib.toLib)) v h) <| panicM_cons (fun v h => (aborts_of (good_u64 lib.toLib)) v h)
    <| panicM_nil)

theorem good_signedVoluntaryExit (lib : Lib) : Good (fun _ => True) (signedVoluntaryExit lib) (SignedVoluntaryExitJson lib) :=
  good_struct hered_true (goodm_cons (good_voluntaryExit lib) <| goodm_cons (good_signature (fun _ _ _ _ => trivial)) <| goodm_nil)
    (show List.Nodup [chars% "message", chars% "signature"] by decide)
    (fun _ => rfl) (fun _ => rfl)

theorem aborts_signedVoluntaryExit (lib : Lib) : Aborts (signedVoluntaryExit lib) :=
  aborts_signed (s := chars% "signature") (k := 1)
    (panicM_cons (fun v h => .inl ((aborts_voluntaryExit lib) v h)) <| panicM_cons (fun v h => .inr ⟨rfl, signature_panic h⟩) <|
    panicM_nil)
    (show List.Nodup [chars% "message", chars% "signature"] by decide)
    rfl (by decide) (show (2, 1) ∈ places by decide)

theorem good_blsChange (lib : Lib) : Good (fun _ => True) (blsChange lib) (BlsChangeJson lib) :=
  good_struct hered_true (goodm_cons (good_u64 lib.toLib) <| goodm_cons (good_pubkey) <| goodm_cons (good_fixed lib.toLib 20) <| goodm_nil)
    (show List.Nodup [chars% "validator_index", chars% "from_bls_pubkey", chars% "to_execution_address"] by decide)
    (fun _ => rfl) (fun _ => rfl)

theorem aborts_blsChange (lib : Lib) : Aborts (blsChange lib) :=
  aborts_plain (panicM_cons (fun v h => (aborts_of (good_u64 lib.toLib)) v h) <| panicM_cons (fun v h => (aborts_of good_pubkey) v h) <|
    panicM_cons (fun v h => (aborts_of (good_fixed lib.toLib 20)) v h) <| panicM_nil)

theorem good_signedBlsChange (lib : Lib) : Good (fun _ => True) (signedBlsChange lib) (SignedBlsChangeJson lib) :=
  good_struct hered_true (goodm_cons (good_blsChange lib) <| goodm_cons (good_signature (fun _ _ _ _ => trivial)) <| goodm_nil)
    (show List.Nodup [chars% "message", chars% "signature"] by decide)
    (fun _ => rfl) (fun _ => rfl)

theorem aborts_signedBlsChange (lib : Lib) : Aborts (signedBlsChange lib) :=
  aborts_signed (s := chars% "signature") (k := 1)
    (panicM_cons (fun v h => .inl ((aborts_blsChange lib) v h)) <| panicM_cons (fun v h => .inr ⟨rfl, signature_panic h⟩) <|
    panicM_nil)
    (show List.Nodup [chars% "message", chars% "signature"] by decide)
    rfl (by decide) (show (2, 1) ∈ places by decide)

theorem good_withdrawal (lib : Lib) : Good (fun _ => True) (withdrawal lib) (WithdrawalJson lib) :=
  good_struct hered_true (goodm_cons (good_u64 lib.toLib) <| goodm_cons (good_u64 lib.toLib) <| goodm_cons (good_fixed lib.toLib 20) <| goodm_cons
    (good_u64 lib.toLib) <| goodm_nil)
    (show List.Nodup [chars% "index", chars% "validator_index", chars% "address", chars% "amount"] by decide)
    (fun _ => rfl) (fun _ => rfl)

theorem aborts_withdrawal (lib : Lib) : Aborts (withdrawal lib) :=
  aborts_plain (panicM_cons (fun v h => (aborts_of (good_u64 lib.toLib)) v h) <| panicM_cons (fun v h => (aborts_of (good_u64 lib.toLib)) v h)
    <| panicM_cons (fun v h => (aborts_of (good_fixed lib.toLib 20)) v h) <| panicM_cons (fun v h => (aborts_of (good_u64
    lib.toLib)) v h) <| panicM_nil)

theorem good_depositRequest (lib : Lib) : Good (fun _ => True) (depositRequest lib) (DepositRequestJson lib) :=
  good_struct hered_true (goodm_cons (good_pubkey) <| goodm_cons (good_word lib.toLib) <| goodm_cons (good_u64 lib.toLib) <| goodm_cons (good_signature
    (fun _ _ _ _ => trivial)) <| goodm_cons (good_u64 lib.toLib) <| goodm_nil)
    (show List.Nodup [chars% "pubkey", chars% "withdrawal_credentials", chars% "amount", chars% "signature", chars% "index"] by
      decide)
    (fun _ => rfl) (fun _ => rfl)

theorem aborts_depositRequest (lib : Lib) : Aborts (depositRequest lib) :=
  aborts_signed (s := chars% "signature") (k := 3)
    (panicM_cons (fun v h => .inl ((aborts_of good_pubkey) v h)) <| panicM_cons (fun v h => .inl ((aborts_of (good_word lib.toLib))
    v h)) <| panicM_cons (fun v h => .inl ((aborts_of (good_u64 lib.toLib)) v h)) <| panicM_cons (fun v h => .inr ⟨rfl,
    signature_panic h⟩) <| panicM_cons (fun v h => .inl ((aborts_of (good_u64 lib.toLib)) v h)) <| panicM_nil)
    (show List.Nodup [chars% "pubkey", chars% "withdrawal_credentials", chars% "amount", chars% "signature", chars% "index"] by
      decide)
    rfl (by decide) (show (5, 3) ∈ places by decide)

theorem good_withdrawalRequest (lib : Lib) : Good (fun _ => True) (withdrawalRequest lib) (WithdrawalRequestJson lib) :=
  good_struct hered_true (goodm_cons (good_fixed lib.toLib 20) <| goodm_cons (good_pubkey) <| goodm_cons (good_u64 lib.toLib) <| goodm_nil)
    (show List.Nodup [chars% "source_address", chars% "validator_pubkey", chars% "amount"] by decide)
    (fun _ => rfl) (fun _ => rfl)

theorem aborts_withdrawalRequest (lib : Lib) : Aborts (withdrawalRequest lib) :=
  aborts_plain (panicM_cons (fun v h => (aborts_of (good_fixed lib.toLib 20)) v h) <| panicM_cons (fun v h => (aborts_of good_pubkey) v h) <|
    panicM_cons (fun v h => (aborts_of (good_u64 lib.toLib)) v h) <| panicM_nil)

theorem good_consolidationRequest (lib : Lib) : Good (fun _ => True) (consolidationRequest lib) (ConsolidationRequestJson lib) :=
  good_struct hered_true (goodm_cons (good_fixed lib.toLib 20) <| goodm_cons (good_pubkey) <| goodm_cons (good_pubkey) <| goodm_nil)
    (show List.Nodup [chars% "source_address", chars% "source_pubkey", chars% "target_pubkey"] by decide)
    (fun _ => rfl) (fun _ => rfl)

theorem aborts_consolidationRequest (lib : Lib) : Aborts (consolidationRequest lib) :=
  aborts_plain (panicM_cons (fun v h => (aborts_of (good_fixed lib.toLib 20)) v h) <| panicM_cons (fun v h => (aborts_of good_pubkey) v h) <|
    panicM_cons (fun v h => (aborts_of good_pubkey) v h) <| panicM_nil)

theorem good_executionRequests (lib : Lib) : Good (fun _ => True) (executionRequests lib) (ExecutionRequestsJson lib) :=
  good_struct hered_true (goodm_cons (good_list (good_depositRequest lib) 8192) <| goodm_cons (good_list (good_withdrawalRequest lib) 16) <| goodm_cons
    (good_list (good_consolidationRequest lib) 2) <| goodm_nil)
    (show List.Nodup [chars% "deposits", chars% "withdrawals", chars% "consolidations"] by decide)
    (fun _ => rfl) (fun _ => rfl)

theorem aborts_executionRequests (lib : Lib) : Aborts (executionRequests lib) :=
  aborts_plain (panicM_cons (fun v h => (aborts_list (aborts_depositRequest lib) 8192) v h) <| panicM_cons (fun v h => (aborts_list
    (aborts_withdrawalRequest lib) 16) v h) <| panicM_cons (fun v h => (aborts_list (aborts_consolidationRequest lib) 2) v h)
    <| panicM_nil)

theorem good_payloadBellatrix (lib : Lib) : Good (fun _ => True) (payloadBellatrix lib) (PayloadBellatrixJson lib) :=
  good_struct hered_true (goodm_cons (good_word lib.toLib) <| goodm_cons (good_fixed lib.toLib 20) <| goodm_cons (good_word lib.toLib) <| goodm_cons
    (good_word lib.toLib) <| goodm_cons (good_hexFixedVec 256) <| goodm_cons (good_word lib.toLib) <| goodm_cons (good_u64
    lib.toLib) <| goodm_cons (good_u64 lib.toLib) <| goodm_cons (good_u64 lib.toLib) <| goodm_cons (good_u64 lib.toLib) <|
    goodm_cons (good_hexVarList 32) <| goodm_cons (good_big lib.toLib) <| goodm_cons (good_word lib.toLib) <| goodm_cons
    (good_list good_transaction 1048576) <| goodm_nil)
    (show List.Nodup [chars% "parent_hash", chars% "fee_recipient", chars% "state_root", chars% "receipts_root", chars%
      "logs_bloom", chars% "prev_randao", chars% "block_number", chars% "gas_limit", chars% "gas_used", chars% "timestamp",
      chars% "extra_data", chars% "base_fee_per_gas", chars% "block_hash", chars% "transactions"] by decide)
    (fun _ => rfl) (fun _ => rfl)

theorem aborts_payloadBellatrix (lib : Lib) : Aborts (payloadBellatrix lib) :=
  aborts_plain (panicM_cons (fun v h => (aborts_of (good_word lib.toLib)) v h) <| panicM_cons (fun v h => (aborts_of (good_fixed lib.toLib
    20)) v h) <| panicM_cons (fun v h => (aborts_of (good_word lib.toLib)) v h) <| panicM_cons (fun v h => (aborts_of
    (good_word lib.toLib)) v h) <| panicM_cons (fun v h => (aborts_of (good_hexFixedVec 256)) v h) <| panicM_cons (fun v h =>
    (aborts_of (good_word lib.toLib)) v h) <| panicM_cons (fun v h => (aborts_of (good_u64 lib.toLib)) v h) <| panicM_cons
    (fun v h => (aborts_of (good_u64 lib.toLib)) v h) <| panicM_cons (fun v h => (aborts_of (good_u64 lib.toLib)) v h) <|
    panicM_cons (fun v h => (aborts_of (good_u64 lib.toLib)) v h) <| panicM_cons (fun v h => (aborts_of (good_hexVarList 32))
    v h) <| panicM_cons (fun v h => (aborts_of (good_big lib.toLib)) v h) <| panicM_cons (fun v h => (aborts_of (good_word
    lib.toLib)) v h) <| panicM_cons (fun v h => (aborts_list (aborts_of good_transaction) 1048576) v h) <| panicM_nil)

theorem good_payloadCapella (lib : Lib) : Good (fun _ => True) (payloadCapella lib) (PayloadCapellaJson lib) :=
  good_struct hered_true (goodm_cons (good_word lib.toLib) <| goodm_cons (good_fixed lib.toLib 20) <| goodm_cons (good_word lib.toLib) <| goodm_cons
    (good_word lib.toLib) <| goodm_cons (good_hexFixedVec 256) <| goodm_cons (good_word lib.toLib) <| goodm_cons (good_u64
    lib.toLib) <| goodm_cons (good_u64 lib.toLib) <| goodm_cons (good_u64 lib.toLib) <| goodm_cons (good_u64 lib.toLib) <|
    goodm_cons (good_hexVarList 32) <| goodm_cons (good_big lib.toLib) <| goodm_cons (good_word lib.toLib) <| goodm_cons
    (good_list good_transaction 1048576) <| goodm_cons (good_list (good_withdrawal lib) 16) <| goodm_nil)
    (show List.Nodup [chars% "parent_hash", chars% "fee_recipient", chars% "state_root", chars% "receipts_root", chars%
      "logs_bloom", chars% "prev_randao", chars% "block_number", chars% "gas_limit", chars% "gas_used", chars% "timestamp",
      chars% "extra_data", chars% "base_fee_per_gas", chars% "block_hash", chars% "transactions", chars% "withdrawals"] by
      decide)
    (fun _ => rfl) (fun _ => rfl)

theorem aborts_payloadCapella (lib : Lib) : Aborts (payloadCapella lib) :=
  aborts_plain (panicM_cons (fun v h => (aborts_of (good_word lib.toLib)) v h) <| panicM_cons (fun v h => (aborts_of (good_fixed lib.toLib
    20)) v h) <| panicM_cons (fun v h => (aborts_of (good_word lib.toLib)) v h) <| panicM_cons (fun v h => (aborts_of
    (good_word lib.toLib)) v h) <| panicM_cons (fun v h => (aborts_of (good_hexFixedVec 256)) v h) <| panicM_cons (fun v h =>
    (aborts_of (good_word lib.toLib)) v h) <| panicM_cons (fun v h => (aborts_of (good_u64 lib.toLib)) v h) <| panicM_cons
    (fun v h => (aborts_of (good_u64 lib.toLib)) v h) <| panicM_cons (fun v h => (aborts_of (good_u64 lib.toLib)) v h) <|
    panicM_cons (fun v h => (aborts_of (good_u64 lib.toLib)) v h) <| panicM_cons (fun v h => (aborts_of (good_hexVarList 32))
    v h) <| panicM_cons (fun v h => (aborts_of (good_big lib.toLib)) v h) <| panicM_cons (fun v h => (aborts_of (good_word
    lib.toLib)) v h) <| panicM_cons (fun v h => (aborts_list (aborts_of good_transaction) 1048576) v h) <| panicM_cons (fun v
    h => (aborts_list (aborts_withdrawal lib) 16) v h) <| panicM_nil)

theorem good_payloadDeneb (lib : Lib) : Good (fun _ => True) (payloadDeneb lib) (PayloadDenebJson lib) :=
  good_struct hered_true (goodm_cons (good_word lib.toLib) <| goodm_cons (good_fixed lib.toLib 20) <| goodm_cons (good_word lib.toLib) <| goodm_cons
    (good_word lib.toLib) <| goodm_cons (good_hexFixedVec 256) <| goodm_cons (good_word lib.toLib) <| goodm_cons (good_u64
    lib.toLib) <| goodm_cons (good_u64 lib.toLib) <| goodm_cons (good_u64 lib.toLib) <| goodm_cons (good_u64 lib.toLib) <|
    goodm_cons (good_hexVarList 32) <| goodm_cons (good_big lib.toLib) <| goodm_cons (good_word lib.toLib) <| goodm_cons
    (good_list good_transaction 1048576) <| goodm_cons (good_list (good_withdrawal lib) 16) <| goodm_cons (good_u64 lib.toLib)
    <| goodm_cons (good_u64 lib.toLib) <| goodm_nil)
    (show List.Nodup [chars% "parent_hash", chars% "fee_recipient", chars% "state_root", chars% "receipts_root", chars%
      "logs_bloom", chars% "prev_randao", chars% "block_number", chars% "gas_limit", chars% "gas_used", chars% "timestamp",
      chars% "extra_data", chars% "base_fee_per_gas", chars% "block_hash", chars% "transactions", chars% "withdrawals", chars%
      "blob_gas_used", chars% "excess_blob_gas"] by decide)
    (fun _ => rfl) (fun _ => rfl)

theorem aborts_payloadDeneb (lib : Lib) : Aborts (payloadDeneb lib) :=
  aborts_plain (panicM_cons (fun v h => (aborts_of (good_word lib.toLib)) v h) <| panicM_cons (fun v h => (aborts_of (good_fixed lib.toLib
    20)) v h) <| panicM_cons (fun v h => (aborts_of (good_word lib.toLib)) v h) <| panicM_cons (fun v h => (aborts_of
    (good_word lib.toLib)) v h) <| panicM_cons (fun v h => (aborts_of (good_hexFixedVec 256)) v h) <| panicM_cons (fun v h =>
    (aborts_of (good_word lib.toLib)) v h) <| panicM_cons (fun v h => (aborts_of (good_u64 lib.toLib)) v h) <| panicM_cons
    (fun v h => (aborts_of (good_u64 lib.toLib)) v h) <| panicM_cons (fun v h => (aborts_of (good_u64 lib.toLib)) v h) <|
    panicM_cons (fun v h => (aborts_of (good_u64 lib.toLib)) v h) <| panicM_cons (fun v h => (aborts_of (good_hexVarList 32))
    v h) <| panicM_cons (fun v h => (aborts_of (good_big lib.toLib)) v h) <| panicM_cons (fun v h => (aborts_of (good_word
    lib.toLib)) v h) <| panicM_cons (fun v h => (aborts_list (aborts_of good_transaction) 1048576) v h) <| panicM_cons (fun v
    h => (aborts_list (aborts_withdrawal lib) 16) v h) <| panicM_cons (fun v h => (aborts_of (good_u64 lib.toLib)) v h) <|
    panicM_cons (fun v h => (aborts_of (good_u64 lib.toLib)) v h) <| panicM_nil)

theorem good_bodyBellatrix (lib : Lib) : Good (fun _ => True) (bodyBellatrix lib) (BodyBellatrixJson lib) :=
  good_struct hered_true (goodm_cons (good_signature (fun _ _ _ _ => trivial)) <| goodm_cons (good_eth1Data lib) <| goodm_cons (good_word lib.toLib) <|
    goodm_cons (good_list (good_proposerSlashing lib) 16) <| goodm_cons (good_list (good_attesterSlashing lib 2048) 2) <|
    goodm_cons (good_list (good_attestationBase lib) 128) <| goodm_cons (good_list (good_deposit lib) 16) <| goodm_cons
    (good_list (good_signedVoluntaryExit lib) 16) <| goodm_cons (good_aggregate_true) <| goodm_cons (good_payloadBellatrix
    lib) <| goodm_nil)
    (show List.Nodup [chars% "randao_reveal", chars% "eth1_data", chars% "graffiti", chars% "proposer_slashings", chars%
      "attester_slashings", chars% "attestations", chars% "deposits", chars% "voluntary_exits", chars% "sync_aggregate",
      chars% "execution_payload"] by decide)
    (fun _ => rfl) (fun _ => rfl)

theorem aborts_bodyBellatrix (lib : Lib) : Aborts (bodyBellatrix lib) :=
  aborts_signed (s := chars% "randao_reveal") (k := 0)
    (panicM_cons (fun v h => .inr ⟨rfl, signature_panic h⟩) <| panicM_cons (fun v h => .inl ((aborts_eth1Data lib) v h)) <|
    panicM_cons (fun v h => .inl ((aborts_of (good_word lib.toLib)) v h)) <| panicM_cons (fun v h => .inl ((aborts_list
    (aborts_proposerSlashing lib) 16) v h)) <| panicM_cons (fun v h => .inl ((aborts_list (aborts_attesterSlashing lib 2048)
    2) v h)) <| panicM_cons (fun v h => .inl ((aborts_list (aborts_attestationBase lib) 128) v h)) <| panicM_cons (fun v h =>
    .inl ((aborts_list (aborts_deposit lib) 16) v h)) <| panicM_cons (fun v h => .inl ((aborts_list
    (aborts_signedVoluntaryExit lib) 16) v h)) <| panicM_cons (fun v h => .inl (aborts_aggregate v h)) <| panicM_cons (fun v h
    => .inl ((aborts_payloadBellatrix lib) v h)) <| panicM_nil)
    (show List.Nodup [chars% "randao_reveal", chars% "eth1_data", chars% "graffiti", chars% "proposer_slashings", chars%
      "attester_slashings", chars% "attestations", chars% "deposits", chars% "voluntary_exits", chars% "sync_aggregate",
      chars% "execution_payload"] by decide)
    rfl (by decide) (show (10, 0) ∈ places by decide)

theorem good_bodyCapella (lib : Lib) : Good (fun _ => True) (bodyCapella lib) (BodyCapellaJson lib) :=
  good_struct hered_true (goodm_cons (good_signature (fun _ _ _ _ => trivial)) <| goodm_cons (good_eth1Data lib) <| goodm_cons (good_word lib.toLib) <|
    goodm_cons (good_list (good_proposerSlashing lib) 16) <| goodm_cons (good_list (good_attesterSlashing lib 2048) 2) <|
    goodm_cons (good_list (good_attestationBase lib) 128) <| goodm_cons (good_list (good_deposit lib) 16) <| goodm_cons
    (good_list (good_signedVoluntaryExit lib) 16) <| goodm_cons (good_aggregate_true) <| goodm_cons (good_payloadCapella lib)
    <| goodm_cons (good_list (good_signedBlsChange lib) 16) <| goodm_nil)
    (show List.Nodup [chars% "randao_reveal", chars% "eth1_data", chars% "graffiti", chars% "proposer_slashings", chars%
      "attester_slashings", chars% "attestations", chars% "deposits", chars% "voluntary_exits", chars% "sync_aggregate",
      chars% "execution_payload", chars% "bls_to_execution_changes"] by decide)
    (fun _ => rfl) (fun _ => rfl)

theorem aborts_bodyCapella (lib : Lib) : Aborts (bodyCapella lib) :=
  aborts_signed (s := chars% "randao_reveal") (k := 0)
    (panicM_cons (fun v h => .inr ⟨rfl, signature_panic h⟩) <| panicM_cons (fun v h => .inl ((aborts_eth1Data lib) v h)) <|
    panicM_cons (fun v h => .inl ((aborts_of (good_word lib.toLib)) v h)) <| panicM_cons (fun v h => .inl ((aborts_list
    (aborts_proposerSlashing lib) 16) v h)) <| panicM_cons (fun v h => .inl ((aborts_list (aborts_attesterSlashing lib 2048)
    2) v h)) <| panicM_cons (fun v h => .inl ((aborts_list (aborts_attestationBase lib) 128) v h)) <| panicM_cons (fun v h =>
    .inl ((aborts_list (aborts_deposit lib) 16) v h)) <| panicM_cons (fun v h => .inl ((aborts_list
    (aborts_signedVoluntaryExit lib) 16) v h)) <| panicM_cons (fun v h => .inl (aborts_aggregate v h)) <| panicM_cons (fun v h
    => .inl ((aborts_payloadCapella lib) v h)) <| panicM_cons (fun v h => .inl ((aborts_list (aborts_signedBlsChange lib) 16)
    v h)) <| panicM_nil)
    (show List.Nodup [chars% "randao_reveal", chars% "eth1_data", chars% "graffiti", chars% "proposer_slashings", chars%
      "attester_slashings", chars% "attestations", chars% "deposits", chars% "voluntary_exits", chars% "sync_aggregate",
      chars% "execution_payload", chars% "bls_to_execution_changes"] by decide)
    rfl (by decide) (show (11, 0) ∈ places by decide)

theorem good_bodyDeneb (lib : Lib) : Good (fun _ => True) (bodyDeneb lib) (BodyDenebJson lib) :=
  good_struct hered_true (goodm_cons (good_signature (fun _ _ _ _ => trivial)) <| goodm_cons (good_eth1Data lib) <| goodm_cons (good_word lib.toLib) <|
    goodm_cons (good_list (good_proposerSlashing lib) 16) <| goodm_cons (good_list (good_attesterSlashing lib 2048) 2) <|
    goodm_cons (good_list (good_attestationBase lib) 128) <| goodm_cons (good_list (good_deposit lib) 16) <| goodm_cons
    (good_list (good_signedVoluntaryExit lib) 16) <| goodm_cons (good_aggregate_true) <| goodm_cons (good_payloadDeneb lib) <|
    goodm_cons (good_list (good_signedBlsChange lib) 16) <| goodm_cons (good_list good_commitment 4096) <| goodm_nil)
    (show List.Nodup [chars% "randao_reveal", chars% "eth1_data", chars% "graffiti", chars% "proposer_slashings", chars%
      "attester_slashings", chars% "attestations", chars% "deposits", chars% "voluntary_exits", chars% "sync_aggregate",
      chars% "execution_payload", chars% "bls_to_execution_changes", chars% "blob_kzg_commitments"] by decide)
    (fun _ => rfl) (fun _ => rfl)

theorem aborts_bodyDeneb (lib : Lib) : Aborts (bodyDeneb lib) :=
  aborts_signed (s := chars% "randao_reveal") (k := 0)
    (panicM_cons (fun v h => .inr ⟨rfl, signature_panic h⟩) <| panicM_cons (fun v h => .inl ((aborts_eth1Data lib) v h)) <|
    panicM_cons (fun v h => .inl ((aborts_of (good_word lib.toLib)) v h)) <| panicM_cons (fun v h => .inl ((aborts_list
    (aborts_proposerSlashing lib) 16) v h)) <| panicM_cons (fun v h => .inl ((aborts_list (aborts_attesterSlashing lib 2048)
    2) v h)) <| panicM_cons (fun v h => .inl ((aborts_list (aborts_attestationBase lib) 128) v h)) <| panicM_cons (fun v h =>
    .inl ((aborts_list (aborts_deposit lib) 16) v h)) <| panicM_cons (fun v h => .inl ((aborts_list
    (aborts_signedVoluntaryExit lib) 16) v h)) <| panicM_cons (fun v h => .inl (aborts_aggregate v h)) <| panicM_cons (fun v h
    => .inl ((aborts_payloadDeneb lib) v h)) <| panicM_cons (fun v h => .inl ((aborts_list (aborts_signedBlsChange lib) 16) v
    h)) <| panicM_cons (fun v h => .inl ((aborts_list (aborts_of good_commitment) 4096) v h)) <| panicM_nil)
    (show List.Nodup [chars% "randao_reveal", chars% "eth1_data", chars% "graffiti", chars% "proposer_slashings", chars%
      "attester_slashings", chars% "attestations", chars% "deposits", chars% "voluntary_exits", chars% "sync_aggregate",
      chars% "execution_payload", chars% "bls_to_execution_changes", chars% "blob_kzg_commitments"] by decide)
    rfl (by decide) (show (12, 0) ∈ places by decide)

theorem good_bodyElectra (lib : Lib) : Good (fun _ => True) (bodyElectra lib) (BodyElectraJson lib) :=
  good_struct hered_true (goodm_cons (good_signature (fun _ _ _ _ => trivial)) <| goodm_cons (good_eth1Data lib) <| goodm_cons (good_word lib.toLib) <|
    goodm_cons (good_list (good_proposerSlashing lib) 16) <| goodm_cons (good_list (good_attesterSlashing lib 131072) 1) <|
    goodm_cons (good_list (good_attestationElectra lib) 8) <| goodm_cons (good_list (good_deposit lib) 16) <| goodm_cons
    (good_list (good_signedVoluntaryExit lib) 16) <| goodm_cons (good_aggregate_true) <| goodm_cons (good_payloadDeneb lib) <|
    goodm_cons (good_list (good_signedBlsChange lib) 16) <| goodm_cons (good_list good_commitment 4096) <| goodm_cons
    (good_executionRequests lib) <| goodm_nil)
    (show List.Nodup [chars% "randao_reveal", chars% "eth1_data", chars% "graffiti", chars% "proposer_slashings", chars%
      "attester_slashings", chars% "attestations", chars% "deposits", chars% "voluntary_exits", chars% "sync_aggregate",
      chars% "execution_payload", chars% "bls_to_execution_changes", chars% "blob_kzg_commitments", chars%
      "execution_requests"] by decide)
    (fun _ => rfl) (fun _ => rfl)

theorem aborts_bodyElectra (lib : Lib) : Aborts (bodyElectra lib) :=
  aborts_signed (s := chars% "randao_reveal") (k := 0)
    (panicM_cons (fun v h => .inr ⟨rfl, signature_panic h⟩) <| panicM_cons (fun v h => .inl ((aborts_eth1Data lib) v h)) <|
    panicM_cons (fun v h => .inl ((aborts_of (good_word lib.toLib)) v h)) <| panicM_cons (fun v h => .inl ((aborts_list
    (aborts_proposerSlashing lib) 16) v h)) <| panicM_cons (fun v h => .inl ((aborts_list (aborts_attesterSlashing lib 131072)
    1) v h)) <| panicM_cons (fun v h => .inl ((aborts_list (aborts_attestationElectra lib) 8) v h)) <| panicM_cons (fun v h =>
    .inl ((aborts_list (aborts_deposit lib) 16) v h)) <| panicM_cons (fun v h => .inl ((aborts_list
    (aborts_signedVoluntaryExit lib) 16) v h)) <| panicM_cons (fun v h => .inl (aborts_aggregate v h)) <| panicM_cons (fun v h
    => .inl ((aborts_payloadDeneb lib) v h)) <| panicM_cons (fun v h => .inl ((aborts_list (aborts_signedBlsChange lib) 16) v
    h)) <| panicM_cons (fun v h => .inl ((aborts_list (aborts_of good_commitment) 4096) v h)) <| panicM_cons (fun v h => .inl
    ((aborts_executionRequests lib) v h)) <| panicM_nil)
    (show List.Nodup [chars% "randao_reveal", chars% "eth1_data", chars% "graffiti", chars% "proposer_slashings", chars%
      "attester_slashings", chars% "attestations", chars% "deposits", chars% "voluntary_exits", chars% "sync_aggregate",
      chars% "execution_payload", chars% "bls_to_execution_changes", chars% "blob_kzg_commitments", chars%
      "execution_requests"] by decide)
    rfl (by decide) (show (13, 0) ∈ places by decide)

theorem good_body (lib : Lib) : ∀ f, Good (fun _ => True) (body lib f) (BodyJson lib f)
  | .bellatrix => good_bodyBellatrix lib
  | .capella => good_bodyCapella lib
  | .deneb => good_bodyDeneb lib
  | .electra => good_bodyElectra lib

theorem aborts_body (lib : Lib) : ∀ f, Aborts (body lib f)
  | .bellatrix => aborts_bodyBellatrix lib
  | .capella => aborts_bodyCapella lib
  | .deneb => aborts_bodyDeneb lib
  | .electra => aborts_bodyElectra lib

theorem good_block (lib : Lib) (f : Fork) : Good (fun _ => True) (block lib f) (BlockJson lib f) :=
  good_struct hered_true (goodm_cons (good_u64 lib.toLib) <| goodm_cons (good_u64 lib.toLib) <| goodm_cons (good_word lib.toLib) <|
    goodm_cons (good_word lib.toLib) <| goodm_cons (good_body lib f) <| goodm_nil)
    (show List.Nodup [chars% "slot", chars% "proposer_index", chars% "parent_root", chars% "state_root", chars% "body"] by decide)
    (fun _ => rfl) (fun _ => rfl)

theorem aborts_block (lib : Lib) (f : Fork) : Aborts (block lib f) :=
  aborts_plain (panicM_cons (fun v h => aborts_of (good_u64 lib.toLib) v h) <| panicM_cons (fun v h =>
    aborts_of (good_u64 lib.toLib) v h) <| panicM_cons (fun v h => aborts_of (good_word lib.toLib) v h) <| panicM_cons (fun v h =>
    aborts_of (good_word lib.toLib) v h) <| panicM_cons (fun v h => aborts_body lib f v h) <| panicM_nil)

theorem good_signed (lib : Lib) (f : Fork) : Good (fun _ => True) (signed lib f) (SignedJson lib f) :=
  good_struct hered_true (goodm_cons (good_block lib f) <| goodm_cons (good_signature (fun _ _ _ _ => trivial)) <| goodm_nil)
    (show List.Nodup [chars% "message", chars% "signature"] by decide) (fun _ => rfl) (fun _ => rfl)

theorem aborts_signedBlock (lib : Lib) (f : Fork) : Aborts (signed lib f) :=
  aborts_signed (s := chars% "signature") (k := 1)
    (panicM_cons (fun v h => .inl (aborts_block lib f v h)) <| panicM_cons (fun v h => .inr ⟨rfl, signature_panic h⟩) <| panicM_nil)
    (show List.Nodup [chars% "message", chars% "signature"] by decide)
    rfl (by decide) (show (2, 1) ∈ places by decide)

theorem panicM_opt {α β} {name : List Char} {t : JTy α} {r : Members β} {Q : List Char → Json → Prop}
    (ht : ∀ v, t.de v ≠ .panic) (hr : PanicM r Q) : PanicM (.opt name t r) Q := by
  intro look h
  simp only [Members.opt, bind_panic, map_panic] at h
  rcases h with h | ⟨_, _, h⟩
  · exfalso
    revert h
    cases (look name).getD .null with
    | null => simp [option]
    | bool _ | arr _ | obj _ | num _ | str _ => simp [option, map_panic, ht]
  · obtain ⟨n, v, h1, h2, h3⟩ := hr look h
    exact ⟨n, v, h1, by simp [Members.opt, h2], h3⟩

theorem aborts_response {α} {t : JTy α} (ht : Aborts t) {j : Json} (h : response t j = .panic) : Wrong j :=
  aborts_plain (closed := false) (f := id) (g := id) (panicM_opt (fun _ => ofOption_panic) <| panicM_opt (fun _ => ofOption_panic) <|
    panicM_opt (fun _ => ofOption_panic) <| panicM_cons (fun v h => ht v h) panicM_nil) j (map_panic.mp h)

/-! ## One variant after the other -/

/-- The value of a needed field of an object. -/
theorem object_lookup {closed : Bool} {fields : List Field} {ms : List (List Char × Json)} (h : IsObject closed fields (.obj ms))
    {n : List Char} {P : Json → Prop} (hf : needed n P ∈ fields) : ∃ v, ms.lookup n = some v ∧ P v := by
  rcases h with ⟨ms', he, h, _⟩ | ⟨_, he, _⟩
  · cases he
    rcases h _ hf with ⟨_, v, hv, _⟩ | ⟨v, h1, w, hw, h2⟩
    · cases hv
    · cases hw
      refine ⟨v, ?_, h2⟩
      rw [lookup_filter]
      simp only [needed] at h1
      rw [h1]
      rfl
  · cases he

theorem each_length {α β : Type} {P : α → β → Prop} : ∀ {as : List α} {bs : List β}, Each P as bs → as.length = bs.length
  | _, _, .nil => rfl
  | _, _, .cons _ r => by simp [each_length r]

/-- A closed structure gives an error for an object with a field it does not know and for an array of another length. -/
theorem struct_err {α β} {r : Members α} {f : α → β} {g : β → α} {closed : Bool} {fields : List Field} {j : Json}
    (h : IsObject closed fields j) {n : List Char} (k : Nat) {P : Json → Prop} (hf : fields[k]? = some (needed n P))
    (ns : List (List Char)) (hns : r.names = ns) (hn : n ∉ ns) (m : Nat) (hm : fields.length = m) (hl : m ≠ ns.length) :
    (struct true r f g).de j = .err := by
  subst hns hm
  cases j with
  | obj ms =>
    obtain ⟨v, h1, _⟩ := object_lookup h (List.mem_of_getElem? hf)
    simp only [struct]
    split
    · rfl
    · rw [if_pos]
      simp only [Bool.true_and]
      exact List.any_eq_true.mpr ⟨_, lookup_mem h1, by simpa using hn⟩
  | arr vs =>
    rcases h with ⟨_, he, _⟩ | ⟨vs', he, h⟩
    · cases he
    · cases he
      simp only [struct]
      rw [if_neg]
      have := each_length h
      omega
  | null | bool _ | str _ | num _ => simp [struct]

/-- Which forks are tried before. -/
def before : Fork → Fork → Bool
  | .bellatrix, .capella | .bellatrix, .deneb | .bellatrix, .electra | .capella, .deneb | .capella, .electra | .deneb, .electra => true
  | _, _ => false

def names10 : List (List Char) := [chars% "randao_reveal", chars% "eth1_data", chars% "graffiti", chars% "proposer_slashings",
  chars% "attester_slashings", chars% "attestations", chars% "deposits", chars% "voluntary_exits", chars% "sync_aggregate",
  chars% "execution_payload"]
def names11 : List (List Char) := names10 ++ [chars% "bls_to_execution_changes"]
def names12 : List (List Char) := names11 ++ [chars% "blob_kzg_commitments"]

theorem body_err (lib : Lib) : ∀ (f f' : Fork), before f' f = true → ∀ (j : Json) (x : Body f), BodyJson lib f j x →
    (body lib f').de j = .err
  | .capella, .bellatrix, _, j, x, h => struct_err h 10 rfl names10 rfl (by decide) 11 rfl (by decide)
  | .deneb, .bellatrix, _, j, x, h => struct_err h 10 rfl names10 rfl (by decide) 12 rfl (by decide)
  | .electra, .bellatrix, _, j, x, h => struct_err h 10 rfl names10 rfl (by decide) 13 rfl (by decide)
  | .deneb, .capella, _, j, x, h => struct_err h 11 rfl names11 rfl (by decide) 12 rfl (by decide)
  | .electra, .capella, _, j, x, h => struct_err h 11 rfl names11 rfl (by decide) 13 rfl (by decide)
  | .electra, .deneb, _, j, x, h => struct_err h 12 rfl names12 rfl (by decide) 13 rfl (by decide)
  | .bellatrix, .bellatrix, h, _, _, _ | .bellatrix, .capella, h, _, _, _ | .bellatrix, .deneb, h, _, _, _
  | .bellatrix, .electra, h, _, _, _ | .capella, .capella, h, _, _, _ | .capella, .deneb, h, _, _, _
  | .capella, .electra, h, _, _, _ | .deneb, .deneb, h, _, _, _ | .deneb, .electra, h, _, _, _
  | .electra, .electra, h, _, _, _ => by cases h

/-- A field that gives an error where the others are right. -/
theorem struct_field {α β} {r : Members α} {f : α → β} {g : β → α} {closed : Bool} {fields : List Field} {j : Json}
    (h : IsObject closed fields j) (hn : fields.map (·.1) = r.names) (hd : r.names.Nodup)
    (hr : ∀ look, (∀ m ∈ fields, m.2 (look m.1)) → r.de look = .err) : (struct closed r f g).de j = .err := by
  rcases h with ⟨ms, rfl, h1, h2⟩ | ⟨vs, rfl, h1⟩
  · simp only [struct]
    split
    · rfl
    · split
      · rfl
      · rw [hr]
        · rfl
        · intro m hm
          refine (field_once m ?_).mpr (h1 m hm)
          rcases h1 m hm with ⟨h, _⟩ | ⟨v, h, _⟩ <;> simp [h]
  · have hz := (zip_lookup_each fields vs (by rw [hn]; exact hd)).mpr h1
    simp only [struct]
    split
    · rw [hr]
      · rfl
      · rw [← hn]; exact hz.2
    · rfl

theorem block_err (lib : Lib) (f f' : Fork) (hb : before f' f = true) (j : Json) (x : Block f) (h : BlockJson lib f j x) :
    (block lib f').de j = .err := by
  refine struct_field h rfl
    (show List.Nodup [chars% "slot", chars% "proposer_index", chars% "parent_root", chars% "state_root", chars% "body"] by decide) ?_
  intro look hl
  simp only [List.mem_cons, forall_eq_or_imp, List.not_mem_nil, false_imp_iff, implies_true, and_true, needed] at hl
  obtain ⟨⟨v1, h1, p1⟩, ⟨v2, h2, p2⟩, ⟨v3, h3, p3⟩, ⟨v4, h4, p4⟩, v5, h5, p5⟩ := hl
  simp only [Members.cons, h1, h2, h3, h4, h5, ((good_u64 (B := fun _ => True) lib.toLib).exact _ _).mpr p1,
    ((good_u64 (B := fun _ => True) lib.toLib).exact _ _).mpr p2, ((good_word (B := fun _ => True) lib.toLib).exact _ _).mpr p3,
    ((good_word (B := fun _ => True) lib.toLib).exact _ _).mpr p4, body_err lib f f' hb _ _ p5]
  rfl

theorem signed_err (lib : Lib) (f f' : Fork) (hb : before f' f = true) (j : Json) (x : Signed f) (h : SignedJson lib f j x) :
    (signed lib f').de j = .err := by
  refine struct_field h rfl (show List.Nodup [chars% "message", chars% "signature"] by decide) ?_
  intro look hl
  simp only [List.mem_cons, forall_eq_or_imp, List.not_mem_nil, false_imp_iff, implies_true, and_true, needed] at hl
  obtain ⟨⟨v1, h1, p1⟩, -⟩ := hl
  simp only [Members.cons, h1, block_err lib f f' hb _ _ p1]
  rfl

theorem orElse_ok {α} {r next : Res α} {a : α} : orElse r next = .ok a ↔ r = .ok a ∨ r = .err ∧ next = .ok a := by
  cases r <;> simp [orElse]

theorem untagged_exact {T : Fork → Type} {t : (f : Fork) → JTy (T f)} {P : (f : Fork) → Json → T f → Prop}
    (ht : ∀ f, Good (fun _ => True) (t f) (P f)) (he : ∀ f f', before f' f = true → ∀ j x, P f j x → (t f').de j = .err) (j : Json)
    (x : (f : Fork) × T f) : (untagged t).de j = .ok x ↔ P x.1 j x.2 := by
  obtain ⟨f, x⟩ := x
  constructor
  · intro h
    simp only [untagged, orElse_ok, map_ok] at h
    rcases h with ⟨y, h, he⟩ | ⟨_, ⟨y, h, he⟩ | ⟨_, ⟨y, h, he⟩ | ⟨_, y, h, he⟩⟩⟩ <;> cases he <;> exact ((ht _).exact _ _).mp h
  · intro h
    have h0 := ((ht f).exact _ _).mpr h
    have hm : ∀ f', before f' f = true → ((t f').de j).map (fun x => (⟨f', x⟩ : (f : Fork) × T f)) = .err := by
      intro f' hb
      rw [he f f' hb j x h]
      rfl
    simp only [untagged]
    cases f with
    | bellatrix => rw [h0]; rfl
    | capella => rw [hm .bellatrix rfl, h0]; rfl
    | deneb => rw [hm .bellatrix rfl, hm .capella rfl, h0]; rfl
    | electra => rw [hm .bellatrix rfl, hm .capella rfl, hm .deneb rfl, h0]; rfl

end Verif.BlockJson
