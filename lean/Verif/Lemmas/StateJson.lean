import Verif.Props.StateJsonSpec
import Verif.Lemmas.BlockJson

/-! Helper lemmas about the JSON of beacon states. -/

namespace Verif.StateJson
open Verif.E2store (Res)
open Verif.SszT (Vec BList BytesN)
open Verif.JsonRpc (Json)
open Verif.HeaderValidator (Fork)
open Verif.BeaconState (State Tail FourBits TailBellatrix TailCapella TailDeneb TailElectra)
open Verif.LcJson hiding Lib good_header good_bootstrap good_update good_finality good_optimistic good_store good_tagged
open Verif.BlockJson (boundedList untagged good_quoted good_list Aborts aborts_of aborts_list aborts_plain aborts_signed PanicM
  panicM_cons panicM_nil good_eth1Data aborts_eth1Data good_checkpoint aborts_checkpoint object_lookup struct_err
  struct_field before untagged_exact orElse_ok)
open Verif.Props.BridgeSpec (Numeral)
open Verif.Props.LcJsonSpec
open Verif.Props.BlockJsonSpec (Wrong places signatureNames IsQuoted Eth1DataJson CheckpointJson)
open Verif.Props.StateJsonSpec
open scoped Verif.Provider

/-! ## Values -/

variable {B : Json → Prop}

/-- The writer of lists that writes quotes. -/
def quotedOf (lib : Lib) : JTy UInt64 := BlockJson.quoted lib.toBlock

theorem good_quotedOf (lib : Lib) : Good B (quotedOf lib) (IsQuoted lib.toBlock) := good_quoted lib.toBlock

theorem good_bare (lib : Lib) (h : TakesBare lib) : Good B (bare lib) (IsQuoted lib.toBlock) where
  exact := (good_quoted (B := B) lib.toBlock).exact
  writes x := .inr ⟨fun t m h => (by cases h), h.1 x⟩
  panics := (good_quoted lib.toBlock).panics

/-- Likewise. -/
def flagsOf (lib : Lib) : JTy UInt8 := ⟨fun n => .str (HeadGen.decimal n.toNat), (flags lib).de⟩

theorem flags_exact (lib : Lib) (j : Json) (x : UInt8) : (flags lib).de j = .ok x ↔ IsFlags lib j x := by
  unfold IsFlags
  cases j with
  | str s =>
    simp only [flags]
    cases hp : HeadGen.parseU64 s with
    | some n =>
      have hN := (BridgeCli.parseU64_iff s n).mp hp
      have huniq : ∀ m, Numeral s m → m = n := by
        intro m hm
        have := (BridgeCli.parseU64_iff s m).mpr hm
        rw [hp] at this
        exact (Option.some.inj this).symm
      dsimp only
      split
      · next hn =>
        simp only [Res.ok.injEq]
        constructor
        · rintro rfl
          refine .inl ⟨s, rfl, ?_⟩
          rw [UInt8.toNat_ofNat', Nat.mod_eq_of_lt (by simpa using hn)]
          exact hN
        · rintro (⟨t, h, ht⟩ | ⟨h, _⟩)
          · cases h
            rw [← huniq _ ht]
            exact UInt8.ofNat_toNat
          · exact absurd (h s n rfl hN) (by omega)
      · next hn =>
        simp only [ofOption_ok]
        constructor
        · intro h
          refine .inr ⟨?_, h⟩
          intro t m he ht
          cases he
          rw [huniq m ht]
          omega
        · rintro (⟨t, h, ht⟩ | ⟨_, h⟩)
          · cases h
            have := huniq _ ht
            have := x.toNat_lt
            omega
          · exact h
    | none =>
      simp only [ofOption_ok]
      have hno : ∀ t m, Json.str s = .str t → ¬ Numeral t m := by
        intro t m h ht
        cases h
        rw [(BridgeCli.parseU64_iff s _).mpr ht] at hp
        cases hp
      exact ⟨fun h => .inr ⟨fun t m h1 h2 => absurd h2 (hno t m h1), h⟩,
        fun h => h.elim (fun ⟨t, h, ht⟩ => absurd ht (hno t _ h)) (·.2)⟩
  | null | bool _ | arr _ | obj _ | num _ => simp [flags, ofOption_ok]

theorem flags_panic (lib : Lib) (j : Json) : (flags lib).de j ≠ .panic := by
  cases j with
  | str s =>
    simp only [flags]
    split
    · split <;> simp [ofOption_panic]
    · simp [ofOption_panic]
  | null | bool _ | arr _ | obj _ | num _ => simp [flags, ofOption_panic]

theorem good_flagsOf (lib : Lib) : Good B (flagsOf lib) (IsFlags lib) where
  exact := flags_exact lib
  writes x := .inl ⟨_, rfl, BridgeCli.numeral_decimal _ (Nat.lt_of_lt_of_le x.toNat_lt (by decide))⟩
  panics j h := (flags_panic lib j h).elim

theorem good_flags (lib : Lib) (h : TakesBare lib) : Good B (flags lib) (IsFlags lib) where
  exact := flags_exact lib
  writes x := .inr ⟨fun t m h => (by cases h), h.2 x⟩
  panics j h := (flags_panic lib j h).elim

theorem aborts_bare (lib : Lib) : Aborts (bare lib) :=
  fun j h => aborts_of (good_quoted lib.toBlock) j h

theorem aborts_flags (lib : Lib) : Aborts (flags lib) := fun j h => (flags_panic lib j h).elim

theorem aborts_vector {α} {t : JTy α} (h : Aborts t) (n : Nat) : Aborts (vector t n) := by
  intro j hj
  cases j with
  | arr js =>
    simp only [vector, bind_panic] at hj
    rcases hj with hj | ⟨xs, _, hj⟩
    · obtain ⟨j, h1, h2⟩ := readAll_panic js hj
      exact .arr h1 (h j h2)
    · split at hj <;> cases hj
  | null | bool _ | str _ | obj _ | num _ => simp [vector] at hj

theorem good_version (lib : Lib) : Good B (version lib) (IsVersion lib) where
  exact j x := by
    have h4 : ∀ y : BytesN 4, (prefixedHex j).bind (sized 4) = .ok y ↔ IsHex j y.1 := by
      intro y
      have := (good_hexFixedVec (B := B) 4).exact j y
      simpa only [hexFixedVec] using this
    unfold IsVersion
    simp only [version]
    split
    · next y hy =>
      have hy' := (h4 y).mp hy
      simp only [Res.ok.injEq]
      constructor
      · rintro rfl
        exact .inl hy'
      · rintro (h | ⟨h, _⟩)
        · have := (h4 x).mpr h
          rw [hy] at this
          exact Res.ok.inj this
        · exact absurd hy' (h y)
    · next hn =>
      have hno : ∀ y : BytesN 4, ¬ IsHex j y.1 := fun y h => hn y ((h4 y).mpr h)
      simp only [ofOption_ok]
      exact ⟨fun h => .inr ⟨hno, h⟩, fun h => h.elim (fun h => absurd h (hno x)) (·.2)⟩
  writes x := .inl ((good_hexFixedVec (B := B) 4).writes x)
  panics j h := by
    exfalso
    revert h
    simp only [version]
    split <;> simp [ofOption_panic]

theorem good_fourBits : Good B fourBits (fun j x => IsHex j [x.1]) where
  exact j x := by
    simp only [fourBits, bind_ok, ofOption_ok, prefixed_iff]
    constructor
    · rintro ⟨bs, h, hx⟩
      have : bs = [x.1] := by
        revert hx
        simp only [BeaconState.fourBits]
        split
        · split
          · rintro ⟨⟩; rfl
          · intro h; cases h
        · intro h; cases h
      exact this ▸ h
    · intro h
      exact ⟨_, h, by simp only [BeaconState.fourBits]; rw [dif_pos x.2]⟩
  writes x := ⟨_, hexBody_digits _, rfl⟩
  panics j h := by
    exfalso
    revert h
    simp [fourBits, bind_panic, prefixed_panic, ofOption_panic]

/-! ## Fields -/

theorem goodm_as {α β} {r : Members α} {M : α → List Field} {f : α → β} {g : β → α} (hr : GoodM B r M) (hfg : ∀ y, f (g y) = y)
    (hgf : ∀ x, g (f x) = x) : GoodM B (membersAs r f g) (fun y => M (g y)) where
  names x := hr.names _
  exact look x := by
    simp only [membersAs, map_ok]
    constructor
    · rintro ⟨a, h, rfl⟩
      rw [hgf]
      exact (hr.exact look a).mp h
    · intro h
      exact ⟨g x, (hr.exact look _).mpr h, hfg x⟩
  writes x := hr.writes _
  panics look h := hr.panics look (map_panic.mp h)

theorem panicM_as {α β} {r : Members α} {f : α → β} {g : β → α} {Q : List Char → Json → Prop} (hr : PanicM r Q) :
    PanicM (membersAs r f g) Q := fun look h => hr look (map_panic.mp h)

/-- An error or a panic. -/
def Sad (e : (α : Type) → Res α) : Prop := (∀ α, e α = .err) ∨ ∀ α, e α = .panic

theorem sad_map {e : (α : Type) → Res α} (he : Sad e) {α β} (f : α → β) : (e α).map f = e β := by
  rcases he with h | h <;> rw [h, h] <;> rfl

/-- A right field, and something wrong after it. -/
theorem cons_then {α β} {name : List Char} {t : JTy α} {P : Json → α → Prop} {r : Members β} {look : List Char → Option Json} {x : α}
    {e : (α : Type) → Res α} (he : Sad e) (ht : Good (fun _ => True) t P) (hm : ∃ v, look name = some v ∧ P v x)
    (hr : r.de look = e _) : (Members.cons name t r).de look = e _ := by
  obtain ⟨v, h1, h2⟩ := hm
  simp only [Members.cons, h1, (ht.exact v x).mpr h2, Res.bind, hr]
  exact sad_map he _

/-! ## Reading does not depend on writing -/

theorem readAll_de {α} {t t' : JTy α} (h : t.de = t'.de) : ∀ js, readAll t js = readAll t' js
  | [] => rfl
  | j :: js => by simp only [readAll, h, readAll_de h js]

theorem list_de {α} {t t' : JTy α} (h : t.de = t'.de) (n : Nat) : (boundedList t n).de = (boundedList t' n).de := by
  funext j
  cases j <;> simp only [boundedList, readAll_de h]

theorem vector_de {α} {t t' : JTy α} (h : t.de = t'.de) (n : Nat) : (vector t n).de = (vector t' n).de := by
  funext j
  cases j <;> simp only [vector, readAll_de h]

theorem cons_de {α β} {name : List Char} {t t' : JTy α} {r r' : Members β} (h : t.de = t'.de) (hr : r.de = r'.de) :
    (Members.cons name t r).de = (Members.cons name t' r').de := by
  funext look
  simp only [Members.cons, h, hr]

theorem struct_de {α β} {closed : Bool} {r r' : Members α} {f : α → β} {g : β → α} (hr : r.de = r'.de) (hn : r.names = r'.names) :
    (struct closed r f g).de = (struct closed r' f g).de := by
  funext j
  cases j <;> simp only [struct, hr, hn]

/-! ## The structures -/

theorem good_forkData (lib : Lib) : Good (fun _ => True) (forkData lib) (ForkDataJson lib) :=
  good_struct hered_true (goodm_cons (good_version lib) <| goodm_cons (good_version lib) <| goodm_cons (good_u64 lib.toBlock.toLib) <| goodm_nil)
    (show List.Nodup [chars% "previous_version", chars% "current_version", chars% "epoch"] by decide)
    (fun _ => rfl) (fun _ => rfl)

theorem aborts_forkData (lib : Lib) : Aborts (forkData lib) :=
  aborts_plain (panicM_cons (fun v h => (aborts_of (good_version lib)) v h) <| panicM_cons (fun v h => (aborts_of (good_version lib)) v h) <|
    panicM_cons (fun v h => (aborts_of (good_u64 lib.toBlock.toLib)) v h) <| panicM_nil)

theorem good_validator (lib : Lib) : Good (fun _ => True) (validator lib) (ValidatorJson lib) :=
  good_struct hered_true (goodm_cons (good_pubkey) <| goodm_cons (good_word lib.toBlock.toLib) <| goodm_cons (good_u64 lib.toBlock.toLib) <| goodm_cons
    (good_bool) <| goodm_cons (good_u64 lib.toBlock.toLib) <| goodm_cons (good_u64 lib.toBlock.toLib) <| goodm_cons (good_u64
    lib.toBlock.toLib) <| goodm_cons (good_u64 lib.toBlock.toLib) <| goodm_nil)
    (show List.Nodup [chars% "pubkey", chars% "withdrawal_credentials", chars% "effective_balance", chars% "slashed", chars%
      "activation_eligibility_epoch", chars% "activation_epoch", chars% "exit_epoch", chars% "withdrawable_epoch"] by decide)
    (fun _ => rfl) (fun _ => rfl)

theorem aborts_validator (lib : Lib) : Aborts (validator lib) :=
  aborts_plain (panicM_cons (fun v h => (aborts_of good_pubkey) v h) <| panicM_cons (fun v h => (aborts_of (good_word lib.toBlock.toLib)) v h)
    <| panicM_cons (fun v h => (aborts_of (good_u64 lib.toBlock.toLib)) v h) <| panicM_cons (fun v h => (aborts_of good_bool)
    v h) <| panicM_cons (fun v h => (aborts_of (good_u64 lib.toBlock.toLib)) v h) <| panicM_cons (fun v h => (aborts_of
    (good_u64 lib.toBlock.toLib)) v h) <| panicM_cons (fun v h => (aborts_of (good_u64 lib.toBlock.toLib)) v h) <| panicM_cons
    (fun v h => (aborts_of (good_u64 lib.toBlock.toLib)) v h) <| panicM_nil)

theorem good_execBellatrix (lib : Lib) : Good (fun _ => True) (execBellatrix lib) (ExecBellatrixJson lib) :=
  good_struct hered_true (goodm_cons (good_word lib.toBlock.toLib) <| goodm_cons (good_fixed lib.toBlock.toLib 20) <| goodm_cons (good_word
    lib.toBlock.toLib) <| goodm_cons (good_word lib.toBlock.toLib) <| goodm_cons (good_hexFixedVec 256) <| goodm_cons
    (good_word lib.toBlock.toLib) <| goodm_cons (good_u64 lib.toBlock.toLib) <| goodm_cons (good_u64 lib.toBlock.toLib) <|
    goodm_cons (good_u64 lib.toBlock.toLib) <| goodm_cons (good_u64 lib.toBlock.toLib) <| goodm_cons (good_hexVarList 32) <|
    goodm_cons (good_big lib.toBlock.toLib) <| goodm_cons (good_word lib.toBlock.toLib) <| goodm_cons (good_word
    lib.toBlock.toLib) <| goodm_nil)
    (show List.Nodup [chars% "parent_hash", chars% "fee_recipient", chars% "state_root", chars% "receipts_root", chars%
      "logs_bloom", chars% "prev_randao", chars% "block_number", chars% "gas_limit", chars% "gas_used", chars% "timestamp",
      chars% "extra_data", chars% "base_fee_per_gas", chars% "block_hash", chars% "transactions_root"] by decide)
    (fun _ => rfl) (fun _ => rfl)

theorem aborts_execBellatrix (lib : Lib) : Aborts (execBellatrix lib) :=
  aborts_plain (panicM_cons (fun v h => (aborts_of (good_word lib.toBlock.toLib)) v h) <| panicM_cons (fun v h => (aborts_of (good_fixed
    lib.toBlock.toLib 20)) v h) <| panicM_cons (fun v h => (aborts_of (good_word lib.toBlock.toLib)) v h) <| panicM_cons (fun
    v h => (aborts_of (good_word lib.toBlock.toLib)) v h) <| panicM_cons (fun v h => (aborts_of (good_hexFixedVec 256)) v h)
    <| panicM_cons (fun v h => (aborts_of (good_word lib.toBlock.toLib)) v h) <| panicM_cons (fun v h => (aborts_of (good_u64
    lib.toBlock.toLib)) v h) <| panicM_cons (fun v h => (aborts_of (good_u64 lib.toBlock.toLib)) v h) <| panicM_cons (fun v h
    => (aborts_of (good_u64 lib.toBlock.toLib)) v h) <| panicM_cons (fun v h => (aborts_of (good_u64 lib.toBlock.toLib)) v h)
    <| panicM_cons (fun v h => (aborts_of (good_hexVarList 32)) v h) <| panicM_cons (fun v h => (aborts_of (good_big
    lib.toBlock.toLib)) v h) <| panicM_cons (fun v h => (aborts_of (good_word lib.toBlock.toLib)) v h) <| panicM_cons (fun v h
    => (aborts_of (good_word lib.toBlock.toLib)) v h) <| panicM_nil)

theorem good_summary (lib : Lib) : Good (fun _ => True) (summary lib) (SummaryJson lib) :=
  good_struct hered_true (goodm_cons (good_word lib.toBlock.toLib) <| goodm_cons (good_word lib.toBlock.toLib) <| goodm_nil)
    (show List.Nodup [chars% "block_summary_root", chars% "state_summary_root"] by decide)
    (fun _ => rfl) (fun _ => rfl)

theorem aborts_summary (lib : Lib) : Aborts (summary lib) :=
  aborts_plain (panicM_cons (fun v h => (aborts_of (good_word lib.toBlock.toLib)) v h) <| panicM_cons (fun v h => (aborts_of (good_word
    lib.toBlock.toLib)) v h) <| panicM_nil)

theorem good_pendingDeposit (lib : Lib) : Good (fun _ => True) (pendingDeposit lib) (PendingDepositJson lib) :=
  good_struct hered_true (goodm_cons (good_pubkey) <| goodm_cons (good_word lib.toBlock.toLib) <| goodm_cons (good_u64 lib.toBlock.toLib) <| goodm_cons
    (good_signature (fun _ _ _ _ => trivial)) <| goodm_cons (good_u64 lib.toBlock.toLib) <| goodm_nil)
    (show List.Nodup [chars% "pubkey", chars% "withdrawal_credentials", chars% "amount", chars% "signature", chars% "slot"] by
      decide)
    (fun _ => rfl) (fun _ => rfl)

theorem aborts_pendingDeposit (lib : Lib) : Aborts (pendingDeposit lib) :=
  aborts_signed (s := chars% "signature") (k := 3)
    (panicM_cons (fun v h => .inl ((aborts_of good_pubkey) v h)) <| panicM_cons (fun v h => .inl ((aborts_of (good_word
    lib.toBlock.toLib)) v h)) <| panicM_cons (fun v h => .inl ((aborts_of (good_u64 lib.toBlock.toLib)) v h)) <| panicM_cons
    (fun v h => .inr ⟨rfl, signature_panic h⟩) <| panicM_cons (fun v h => .inl ((aborts_of (good_u64 lib.toBlock.toLib)) v h))
    <| panicM_nil)
    (show List.Nodup [chars% "pubkey", chars% "withdrawal_credentials", chars% "amount", chars% "signature", chars% "slot"] by
      decide)
    rfl (by decide) (show (5, 3) ∈ places by decide)

theorem good_pendingWithdrawal (lib : Lib) : Good (fun _ => True) (pendingWithdrawal lib) (PendingWithdrawalJson lib) :=
  good_struct hered_true (goodm_cons (good_u64 lib.toBlock.toLib) <| goodm_cons (good_u64 lib.toBlock.toLib) <| goodm_cons (good_u64 lib.toBlock.toLib)
    <| goodm_nil)
    (show List.Nodup [chars% "validator_index", chars% "amount", chars% "withdrawable_epoch"] by decide)
    (fun _ => rfl) (fun _ => rfl)

theorem aborts_pendingWithdrawal (lib : Lib) : Aborts (pendingWithdrawal lib) :=
  aborts_plain (panicM_cons (fun v h => (aborts_of (good_u64 lib.toBlock.toLib)) v h) <| panicM_cons (fun v h => (aborts_of (good_u64
    lib.toBlock.toLib)) v h) <| panicM_cons (fun v h => (aborts_of (good_u64 lib.toBlock.toLib)) v h) <| panicM_nil)

theorem good_pendingConsolidation (lib : Lib) : Good (fun _ => True) (pendingConsolidation lib) (PendingConsolidationJson lib) :=
  good_struct hered_true (goodm_cons (good_u64 lib.toBlock.toLib) <| goodm_cons (good_u64 lib.toBlock.toLib) <| goodm_nil)
    (show List.Nodup [chars% "source_index", chars% "target_index"] by decide)
    (fun _ => rfl) (fun _ => rfl)

theorem aborts_pendingConsolidation (lib : Lib) : Aborts (pendingConsolidation lib) :=
  aborts_plain (panicM_cons (fun v h => (aborts_of (good_u64 lib.toBlock.toLib)) v h) <| panicM_cons (fun v h => (aborts_of (good_u64
    lib.toBlock.toLib)) v h) <| panicM_nil)

theorem good_tailBellatrix (lib : Lib) : GoodM (fun _ => True) (tailBellatrix lib) (tailBellatrixFields lib) :=
  goodm_as (goodm_cons (good_execBellatrix lib) <| goodm_nil) (fun _ => rfl) (fun _ => rfl)

theorem aborts_tailBellatrix (lib : Lib) : PanicM (tailBellatrix lib) (fun _ v => Wrong v) :=
  panicM_as (panicM_cons (fun v h => (aborts_execBellatrix lib) v h) <| panicM_nil)

theorem good_tailCapella (lib : Lib) : GoodM (fun _ => True) (tailCapella lib) (tailCapellaFields lib) :=
  goodm_as (goodm_cons (good_execCapella hered_true lib.toBlock.toLib) <| goodm_cons (good_u64 lib.toBlock.toLib) <| goodm_cons (good_u64
    lib.toBlock.toLib) <| goodm_cons (good_list (good_summary lib) 16777216) <| goodm_nil) (fun _ => rfl) (fun _ => rfl)

theorem aborts_tailCapella (lib : Lib) : PanicM (tailCapella lib) (fun _ v => Wrong v) :=
  panicM_as (panicM_cons (fun v h => (aborts_of (good_execCapella hered_false lib.toBlock.toLib)) v h) <| panicM_cons (fun v h =>
    (aborts_of (good_u64 lib.toBlock.toLib)) v h) <| panicM_cons (fun v h => (aborts_of (good_u64 lib.toBlock.toLib)) v h) <|
    panicM_cons (fun v h => (aborts_list (aborts_summary lib) 16777216) v h) <| panicM_nil)

theorem good_tailDeneb (lib : Lib) : GoodM (fun _ => True) (tailDeneb lib) (tailDenebFields lib) :=
  goodm_as (goodm_cons (good_execDeneb hered_true lib.toBlock.toLib) <| goodm_cons (good_u64 lib.toBlock.toLib) <| goodm_cons (good_u64
    lib.toBlock.toLib) <| goodm_cons (good_list (good_summary lib) 16777216) <| goodm_nil) (fun _ => rfl) (fun _ => rfl)

theorem aborts_tailDeneb (lib : Lib) : PanicM (tailDeneb lib) (fun _ v => Wrong v) :=
  panicM_as (panicM_cons (fun v h => (aborts_of (good_execDeneb hered_false lib.toBlock.toLib)) v h) <| panicM_cons (fun v h => (aborts_of
    (good_u64 lib.toBlock.toLib)) v h) <| panicM_cons (fun v h => (aborts_of (good_u64 lib.toBlock.toLib)) v h) <| panicM_cons
    (fun v h => (aborts_list (aborts_summary lib) 16777216) v h) <| panicM_nil)

theorem good_tailElectra (lib : Lib) : GoodM (fun _ => True) (tailElectra lib) (tailElectraFields lib) :=
  goodm_as (goodm_cons (good_execDeneb hered_true lib.toBlock.toLib) <| goodm_cons (good_u64 lib.toBlock.toLib) <| goodm_cons (good_u64
    lib.toBlock.toLib) <| goodm_cons (good_list (good_summary lib) 16777216) <| goodm_cons (good_u64 lib.toBlock.toLib) <|
    goodm_cons (good_u64 lib.toBlock.toLib) <| goodm_cons (good_u64 lib.toBlock.toLib) <| goodm_cons (good_u64
    lib.toBlock.toLib) <| goodm_cons (good_u64 lib.toBlock.toLib) <| goodm_cons (good_u64 lib.toBlock.toLib) <| goodm_cons
    (good_list (good_pendingDeposit lib) 134217728) <| goodm_cons (good_list (good_pendingWithdrawal lib) 134217728) <|
    goodm_cons (good_list (good_pendingConsolidation lib) 262144) <| goodm_nil) (fun _ => rfl) (fun _ => rfl)

theorem aborts_tailElectra (lib : Lib) : PanicM (tailElectra lib) (fun _ v => Wrong v) :=
  panicM_as (panicM_cons (fun v h => (aborts_of (good_execDeneb hered_false lib.toBlock.toLib)) v h) <| panicM_cons (fun v h => (aborts_of
    (good_u64 lib.toBlock.toLib)) v h) <| panicM_cons (fun v h => (aborts_of (good_u64 lib.toBlock.toLib)) v h) <| panicM_cons
    (fun v h => (aborts_list (aborts_summary lib) 16777216) v h) <| panicM_cons (fun v h => (aborts_of (good_u64
    lib.toBlock.toLib)) v h) <| panicM_cons (fun v h => (aborts_of (good_u64 lib.toBlock.toLib)) v h) <| panicM_cons (fun v h
    => (aborts_of (good_u64 lib.toBlock.toLib)) v h) <| panicM_cons (fun v h => (aborts_of (good_u64 lib.toBlock.toLib)) v h)
    <| panicM_cons (fun v h => (aborts_of (good_u64 lib.toBlock.toLib)) v h) <| panicM_cons (fun v h => (aborts_of (good_u64
    lib.toBlock.toLib)) v h) <| panicM_cons (fun v h => (aborts_list (aborts_pendingDeposit lib) 134217728) v h) <|
    panicM_cons (fun v h => (aborts_list (aborts_pendingWithdrawal lib) 134217728) v h) <| panicM_cons (fun v h =>
    (aborts_list (aborts_pendingConsolidation lib) 262144) v h) <| panicM_nil)

/-- The fields of a state, with other writers of numbers. -/
def commonMembers (q : JTy UInt64) (p : JTy UInt8) (lib : Lib) (f : Fork) :=
  (Members.cons (chars% "genesis_time") (u64 lib.toBlock.toLib) <| .cons (chars% "genesis_validators_root") (word lib.toBlock.toLib) <|
    .cons (chars% "slot") (u64 lib.toBlock.toLib) <| .cons (chars% "fork") (forkData lib) <| .cons (chars%
    "latest_block_header") (LcJson.header lib.toBlock.toLib) <| .cons (chars% "block_roots") (vector (word lib.toBlock.toLib)
    8192) <| .cons (chars% "state_roots") (vector (word lib.toBlock.toLib) 8192) <| .cons (chars% "historical_roots")
    (boundedList (word lib.toBlock.toLib) 16777216) <| .cons (chars% "eth1_data") (BlockJson.eth1Data lib.toBlock) <| .cons
    (chars% "eth1_data_votes") (boundedList (BlockJson.eth1Data lib.toBlock) 2048) <| .cons (chars% "eth1_deposit_index") (u64
    lib.toBlock.toLib) <| .cons (chars% "validators") (boundedList (validator lib) 1099511627776) <| .cons (chars% "balances")
    (boundedList q 1099511627776) <| .cons (chars% "randao_mixes") (vector (word lib.toBlock.toLib) 65536) <| .cons (chars%
    "slashings") (vector q 8192) <| .cons (chars% "previous_epoch_participation") (boundedList p 1099511627776) <| .cons
    (chars% "current_epoch_participation") (boundedList p 1099511627776) <| .cons (chars% "justification_bits") fourBits <|
    .cons (chars% "previous_justified_checkpoint") (BlockJson.checkpoint lib.toBlock) <| .cons (chars%
    "current_justified_checkpoint") (BlockJson.checkpoint lib.toBlock) <| .cons (chars% "finalized_checkpoint")
    (BlockJson.checkpoint lib.toBlock) <| .cons (chars% "inactivity_scores") (boundedList q 1099511627776) <| .cons (chars%
    "current_sync_committee") LcJson.syncCommittee <| .cons (chars% "next_sync_committee") LcJson.syncCommittee <| tail lib f)

/-- The fields of a state, with other writers of numbers. -/
def stateWith (q : JTy UInt64) (p : JTy UInt8) (lib : Lib) (f : Fork) : JTy (State f) :=
  struct true
    (.cons (chars% "genesis_time") (u64 lib.toBlock.toLib) <| .cons (chars% "genesis_validators_root") (word lib.toBlock.toLib) <|
      .cons (chars% "slot") (u64 lib.toBlock.toLib) <| .cons (chars% "fork") (forkData lib) <| .cons (chars%
      "latest_block_header") (LcJson.header lib.toBlock.toLib) <| .cons (chars% "block_roots") (vector (word
      lib.toBlock.toLib) 8192) <| .cons (chars% "state_roots") (vector (word lib.toBlock.toLib) 8192) <| .cons (chars%
      "historical_roots") (boundedList (word lib.toBlock.toLib) 16777216) <| .cons (chars% "eth1_data") (BlockJson.eth1Data
      lib.toBlock) <| .cons (chars% "eth1_data_votes") (boundedList (BlockJson.eth1Data lib.toBlock) 2048) <| .cons (chars%
      "eth1_deposit_index") (u64 lib.toBlock.toLib) <| .cons (chars% "validators") (boundedList (validator lib) 1099511627776)
      <| .cons (chars% "balances") (boundedList q 1099511627776) <| .cons (chars% "randao_mixes") (vector (word
      lib.toBlock.toLib) 65536) <| .cons (chars% "slashings") (vector q 8192) <| .cons (chars% "previous_epoch_participation")
      (boundedList p 1099511627776) <| .cons (chars% "current_epoch_participation") (boundedList p 1099511627776) <| .cons
      (chars% "justification_bits") fourBits <| .cons (chars% "previous_justified_checkpoint") (BlockJson.checkpoint
      lib.toBlock) <| .cons (chars% "current_justified_checkpoint") (BlockJson.checkpoint lib.toBlock) <| .cons (chars%
      "finalized_checkpoint") (BlockJson.checkpoint lib.toBlock) <| .cons (chars% "inactivity_scores") (boundedList q
      1099511627776) <| .cons (chars% "current_sync_committee") LcJson.syncCommittee <| .cons (chars% "next_sync_committee")
      LcJson.syncCommittee <| tail lib f)
    (fun (a, b, c, d, e, g, h, i, j, k, l, m, n, o, p, q, r, s, t, u, v, w, x, y, tail) =>
      ⟨a, b, c, d, e, g, h, i, j, k, l, m, n, o, p, q, r, s, t, u, v, w, x, y, tail⟩)
    (fun x => (x.genesisTime, x.genesisValidatorsRoot, x.slot, x.fork, x.latestBlockHeader, x.blockRoots, x.stateRoots,
      x.historicalRoots, x.eth1Data, x.eth1DataVotes, x.eth1DepositIndex, x.validators, x.balances, x.randaoMixes,
      x.slashings, x.previousEpochParticipation, x.currentEpochParticipation, x.justificationBits, x.previousJustified,
      x.currentJustified, x.finalized, x.inactivityScores, x.currentSyncCommittee, x.nextSyncCommittee, x.tail))

def commonNames : List (List Char) := [chars% "genesis_time", chars% "genesis_validators_root", chars% "slot", chars% "fork", chars% "latest_block_header", chars%
  "block_roots", chars% "state_roots", chars% "historical_roots", chars% "eth1_data", chars% "eth1_data_votes", chars%
  "eth1_deposit_index", chars% "validators", chars% "balances", chars% "randao_mixes", chars% "slashings", chars%
  "previous_epoch_participation", chars% "current_epoch_participation", chars% "justification_bits", chars%
  "previous_justified_checkpoint", chars% "current_justified_checkpoint", chars% "finalized_checkpoint", chars%
  "inactivity_scores", chars% "current_sync_committee", chars% "next_sync_committee"]

def tailNames : Fork → List (List Char)
  | .bellatrix => [chars% "latest_execution_payload_header"]
  | .capella => [chars% "latest_execution_payload_header", chars% "next_withdrawal_index", chars% "next_withdrawal_validator_index", chars%
    "historical_summaries"]
  | .deneb => [chars% "latest_execution_payload_header", chars% "next_withdrawal_index", chars% "next_withdrawal_validator_index", chars%
    "historical_summaries"]
  | .electra => [chars% "latest_execution_payload_header", chars% "next_withdrawal_index", chars% "next_withdrawal_validator_index", chars%
    "historical_summaries", chars% "deposit_requests_start_index", chars% "deposit_balance_to_consume", chars%
    "exit_balance_to_consume", chars% "earliest_exit_epoch", chars% "consolidation_balance_to_consume", chars%
    "earliest_consolidation_epoch", chars% "pending_deposits", chars% "pending_partial_withdrawals", chars%
    "pending_consolidations"]

theorem tail_names (lib : Lib) : ∀ f, (tail lib f).names = tailNames f
  | .bellatrix | .capella | .deneb | .electra => rfl

theorem names_nodup (f : Fork) : (commonNames ++ tailNames f).Nodup := by cases f <;> decide +kernel

theorem good_tail (lib : Lib) : ∀ f, GoodM (fun _ => True) (tail lib f) (tailFields lib f)
  | .bellatrix => good_tailBellatrix lib
  | .capella => good_tailCapella lib
  | .deneb => good_tailDeneb lib
  | .electra => good_tailElectra lib

theorem aborts_tail (lib : Lib) : ∀ f, PanicM (tail lib f) (fun _ v => Wrong v)
  | .bellatrix => aborts_tailBellatrix lib
  | .capella => aborts_tailCapella lib
  | .deneb => aborts_tailDeneb lib
  | .electra => aborts_tailElectra lib

theorem good_stateWith {q : JTy UInt64} {p : JTy UInt8} (lib : Lib) (f : Fork) (hq : Good (fun _ => True) q (IsQuoted lib.toBlock))
    (hp : Good (fun _ => True) p (IsFlags lib)) : Good (fun _ => True) (stateWith q p lib f) (StateJson lib f) :=
  good_struct hered_true (goodm_cons (good_u64 lib.toBlock.toLib) <| goodm_cons (good_word lib.toBlock.toLib) <| goodm_cons (good_u64 lib.toBlock.toLib)
    <| goodm_cons (good_forkData lib) <| goodm_cons (LcJson.good_header hered_true lib.toBlock.toLib) <| goodm_cons
    (good_vector hered_true (good_word lib.toBlock.toLib) 8192) <| goodm_cons (good_vector hered_true (good_word
    lib.toBlock.toLib) 8192) <| goodm_cons (good_list (good_word lib.toBlock.toLib) 16777216) <| goodm_cons (good_eth1Data
    lib.toBlock) <| goodm_cons (good_list (good_eth1Data lib.toBlock) 2048) <| goodm_cons (good_u64 lib.toBlock.toLib) <|
    goodm_cons (good_list (good_validator lib) 1099511627776) <| goodm_cons (good_list hq 1099511627776) <| goodm_cons
    (good_vector hered_true (good_word lib.toBlock.toLib) 65536) <| goodm_cons (good_vector hered_true hq 8192) <| goodm_cons
    (good_list hp 1099511627776) <| goodm_cons (good_list hp 1099511627776) <| goodm_cons (good_fourBits) <| goodm_cons
    (good_checkpoint lib.toBlock) <| goodm_cons (good_checkpoint lib.toBlock) <| goodm_cons (good_checkpoint lib.toBlock) <|
    goodm_cons (good_list hq 1099511627776) <| goodm_cons (good_committee hered_true) <| goodm_cons (good_committee
    hered_true) <| good_tail lib f)
    (show List.Nodup (commonNames ++ (tail lib f).names) from tail_names lib f ▸ names_nodup f)
    (fun _ => rfl) (fun _ => rfl)

theorem aborts_state (lib : Lib) (f : Fork) : Aborts (state lib f) :=
  aborts_plain (panicM_cons (fun v h => (aborts_of (good_u64 lib.toBlock.toLib)) v h) <| panicM_cons (fun v h => (aborts_of (good_word
    lib.toBlock.toLib)) v h) <| panicM_cons (fun v h => (aborts_of (good_u64 lib.toBlock.toLib)) v h) <| panicM_cons (fun v h
    => (aborts_forkData lib) v h) <| panicM_cons (fun v h => (aborts_of (LcJson.good_header hered_false lib.toBlock.toLib)) v
    h) <| panicM_cons (fun v h => (aborts_of (good_vector hered_false (good_word lib.toBlock.toLib) 8192)) v h) <| panicM_cons
    (fun v h => (aborts_of (good_vector hered_false (good_word lib.toBlock.toLib) 8192)) v h) <| panicM_cons (fun v h =>
    (aborts_list (aborts_of (good_word lib.toBlock.toLib)) 16777216) v h) <| panicM_cons (fun v h => (aborts_eth1Data
    lib.toBlock) v h) <| panicM_cons (fun v h => (aborts_list (aborts_eth1Data lib.toBlock) 2048) v h) <| panicM_cons (fun v h
    => (aborts_of (good_u64 lib.toBlock.toLib)) v h) <| panicM_cons (fun v h => (aborts_list (aborts_validator lib)
    1099511627776) v h) <| panicM_cons (fun v h => (aborts_list (aborts_bare lib) 1099511627776) v h) <| panicM_cons (fun v h
    => (aborts_of (good_vector hered_false (good_word lib.toBlock.toLib) 65536)) v h) <| panicM_cons (fun v h =>
    (aborts_vector (aborts_bare lib) 8192) v h) <| panicM_cons (fun v h => (aborts_list (aborts_flags lib) 1099511627776) v h)
    <| panicM_cons (fun v h => (aborts_list (aborts_flags lib) 1099511627776) v h) <| panicM_cons (fun v h => (aborts_of
    good_fourBits) v h) <| panicM_cons (fun v h => (aborts_checkpoint lib.toBlock) v h) <| panicM_cons (fun v h =>
    (aborts_checkpoint lib.toBlock) v h) <| panicM_cons (fun v h => (aborts_checkpoint lib.toBlock) v h) <| panicM_cons (fun v
    h => (aborts_list (aborts_bare lib) 1099511627776) v h) <| panicM_cons (fun v h => (aborts_of (good_committee
    hered_false)) v h) <| panicM_cons (fun v h => (aborts_of (good_committee hered_false)) v h) <| aborts_tail lib f)

/-- Right common fields: what comes of the others comes of all of them. -/
theorem common_then (lib : Lib) (f f' : Fork) (x : State f) (look : List Char → Option Json)
    (hl : ∀ m ∈ stateFields lib f x, m.1 ∈ commonNames → m.2 (look m.1)) {e : (α : Type) → Res α} (he : Sad e)
    (ht : (tail lib f').de look = e _) : (commonMembers (quotedOf lib) (flagsOf lib) lib f').de look = e _ := by
  have hl : ∀ m ∈ ([needed (chars% "genesis_time") (IsNumber lib.toBlock.toLib · x.genesisTime), needed (chars% "genesis_validators_root")
      (IsWord lib.toBlock.toLib · x.genesisValidatorsRoot), needed (chars% "slot") (IsNumber lib.toBlock.toLib · x.slot),
      needed (chars% "fork") (ForkDataJson lib · x.fork), needed (chars% "latest_block_header") (HeaderJson lib.toBlock.toLib
      · x.latestBlockHeader), needed (chars% "block_roots") (IsArray (IsWord lib.toBlock.toLib) · x.blockRoots.1), needed
      (chars% "state_roots") (IsArray (IsWord lib.toBlock.toLib) · x.stateRoots.1), needed (chars% "historical_roots")
      (IsArray (IsWord lib.toBlock.toLib) · x.historicalRoots.1), needed (chars% "eth1_data") (Eth1DataJson lib.toBlock ·
      x.eth1Data), needed (chars% "eth1_data_votes") (IsArray (Eth1DataJson lib.toBlock) · x.eth1DataVotes.1), needed (chars%
      "eth1_deposit_index") (IsNumber lib.toBlock.toLib · x.eth1DepositIndex), needed (chars% "validators") (IsArray
      (ValidatorJson lib) · x.validators.1), needed (chars% "balances") (IsArray (IsQuoted lib.toBlock) · x.balances.1),
      needed (chars% "randao_mixes") (IsArray (IsWord lib.toBlock.toLib) · x.randaoMixes.1), needed (chars% "slashings")
      (IsArray (IsQuoted lib.toBlock) · x.slashings.1), needed (chars% "previous_epoch_participation") (IsArray (IsFlags lib)
      · x.previousEpochParticipation.1), needed (chars% "current_epoch_participation") (IsArray (IsFlags lib) ·
      x.currentEpochParticipation.1), needed (chars% "justification_bits") (IsHex · [x.justificationBits.1]), needed (chars%
      "previous_justified_checkpoint") (CheckpointJson lib.toBlock · x.previousJustified), needed (chars%
      "current_justified_checkpoint") (CheckpointJson lib.toBlock · x.currentJustified), needed (chars%
      "finalized_checkpoint") (CheckpointJson lib.toBlock · x.finalized), needed (chars% "inactivity_scores") (IsArray
      (IsQuoted lib.toBlock) · x.inactivityScores.1), needed (chars% "current_sync_committee") (CommitteeJson ·
      x.currentSyncCommittee), needed (chars% "next_sync_committee") (CommitteeJson · x.nextSyncCommittee)] : List Field), m.2 (look m.1) := by
    intro m hm
    refine hl m (List.mem_append_left _ hm) ?_
    exact List.mem_map_of_mem (f := Prod.fst) hm
  simp only [List.mem_cons, forall_eq_or_imp, List.not_mem_nil, false_imp_iff, implies_true, and_true, needed] at hl
  obtain ⟨h0, h1, h2, h3, h4, h5, h6, h7, h8, h9, h10, h11, h12, h13, h14, h15, h16, h17, h18, h19, h20, h21, h22, h23⟩ := hl
  exact cons_then he (good_u64 lib.toBlock.toLib) h0 <| cons_then he (good_word lib.toBlock.toLib) h1 <| cons_then he (good_u64
    lib.toBlock.toLib) h2 <| cons_then he (good_forkData lib) h3 <| cons_then he (LcJson.good_header hered_true
    lib.toBlock.toLib) h4 <| cons_then he (good_vector hered_true (good_word lib.toBlock.toLib) 8192) h5 <| cons_then he
    (good_vector hered_true (good_word lib.toBlock.toLib) 8192) h6 <| cons_then he (good_list (good_word lib.toBlock.toLib)
    16777216) h7 <| cons_then he (good_eth1Data lib.toBlock) h8 <| cons_then he (good_list (good_eth1Data lib.toBlock) 2048)
    h9 <| cons_then he (good_u64 lib.toBlock.toLib) h10 <| cons_then he (good_list (good_validator lib) 1099511627776) h11 <|
    cons_then he (good_list (good_quotedOf lib) 1099511627776) h12 <| cons_then he (good_vector hered_true (good_word
    lib.toBlock.toLib) 65536) h13 <| cons_then he (good_vector hered_true (good_quotedOf lib) 8192) h14 <| cons_then he
    (good_list (good_flagsOf lib) 1099511627776) h15 <| cons_then he (good_list (good_flagsOf lib) 1099511627776) h16 <|
    cons_then he (good_fourBits) h17 <| cons_then he (good_checkpoint lib.toBlock) h18 <| cons_then he (good_checkpoint
    lib.toBlock) h19 <| cons_then he (good_checkpoint lib.toBlock) h20 <| cons_then he (good_list (good_quotedOf lib)
    1099511627776) h21 <| cons_then he (good_committee hered_true) h22 <| cons_then he (good_committee hered_true) h23 <| ht

theorem common_de (lib : Lib) (f : Fork) :
    (commonMembers (bare lib) (flags lib) lib f).de = (commonMembers (quotedOf lib) (flagsOf lib) lib f).de :=
  cons_de (rfl) <| cons_de (rfl) <| cons_de (rfl) <| cons_de (rfl) <| cons_de (rfl) <| cons_de (rfl) <| cons_de (rfl) <| cons_de
    (rfl) <| cons_de (rfl) <| cons_de (rfl) <| cons_de (rfl) <| cons_de (rfl) <| cons_de (list_de (show (bare lib).de =
    (quotedOf lib).de from rfl) _) <| cons_de (rfl) <| cons_de (vector_de (show (bare lib).de = (quotedOf lib).de from rfl) _)
    <| cons_de (list_de (show (flags lib).de = (flagsOf lib).de from rfl) _) <| cons_de (list_de (show (flags lib).de =
    (flagsOf lib).de from rfl) _) <| cons_de (rfl) <| cons_de (rfl) <| cons_de (rfl) <| cons_de (rfl) <| cons_de (list_de
    (show (bare lib).de = (quotedOf lib).de from rfl) _) <| cons_de (rfl) <| cons_de (rfl) <| rfl

theorem state_de (lib : Lib) (f : Fork) : (state lib f).de = (stateWith (quotedOf lib) (flagsOf lib) lib f).de :=
  struct_de (common_de lib f) rfl

theorem good_quoted_state (lib : Lib) (f : Fork) :
    Good (fun _ => True) (stateWith (quotedOf lib) (flagsOf lib) lib f) (StateJson lib f) :=
  good_stateWith lib f (good_quotedOf lib) (good_flagsOf lib)

theorem state_exact (lib : Lib) (f : Fork) (j : Json) (x : State f) : (state lib f).de j = .ok x ↔ StateJson lib f j x := by
  rw [state_de]
  exact (good_quoted_state lib f).exact j x

theorem good_state (lib : Lib) (f : Fork) (h : TakesBare lib) : Good (fun _ => True) (state lib f) (StateJson lib f) :=
  good_stateWith lib f (good_bare lib h) (good_flags lib h)

/-! ## Which fork -/

theorem fields_names (lib : Lib) (f : Fork) (x : State f) : (stateFields lib f x).map (·.1) = commonNames ++ tailNames f := by
  cases f <;> rfl

theorem member_names (lib : Lib) (f : Fork) :
    (commonMembers (bare lib) (flags lib) lib f).names = commonNames ++ tailNames f := by
  cases f <;> rfl

theorem later_err (lib : Lib) (f f' : Fork) (x : State f) (j : Json) (h : StateJson lib f j x) (n : List Char) (k : Nat)
    (P : Json → Prop) (hf : (stateFields lib f x)[k]? = some (needed n P)) (hn : n ∉ commonNames ++ tailNames f')
    (hl : (commonNames ++ tailNames f).length ≠ (commonNames ++ tailNames f').length) : (state lib f').de j = .err :=
  struct_err h k hf (commonNames ++ tailNames f') (member_names lib f') hn (commonNames ++ tailNames f).length
    (by rw [← fields_names lib f x, List.length_map]) hl

/-- Only Deneb's states are taken by an earlier variant. -/
theorem state_err (lib : Lib) : ∀ (f f' : Fork), before f' f = true → ¬ (f = .deneb ∧ f' = .capella) → ∀ (j : Json) (x : State f),
    StateJson lib f j x → (state lib f').de j = .err
  | .capella, .bellatrix, _, _, j, x, h => later_err lib _ _ x j h (chars% "next_withdrawal_index") 25 _ rfl (by decide +kernel) (by decide +kernel)
  | .deneb, .bellatrix, _, _, j, x, h => later_err lib _ _ x j h (chars% "next_withdrawal_index") 25 _ rfl (by decide +kernel) (by decide +kernel)
  | .electra, .bellatrix, _, _, j, x, h => later_err lib _ _ x j h (chars% "next_withdrawal_index") 25 _ rfl (by decide +kernel) (by decide +kernel)
  | .electra, .capella, _, _, j, x, h => later_err lib _ _ x j h (chars% "deposit_requests_start_index") 28 _ rfl (by decide +kernel) (by decide +kernel)
  | .electra, .deneb, _, _, j, x, h => later_err lib _ _ x j h (chars% "deposit_requests_start_index") 28 _ rfl (by decide +kernel) (by decide +kernel)
  | .deneb, .capella, _, hn, _, _, _ => absurd ⟨rfl, rfl⟩ hn
  | .bellatrix, .bellatrix, h, _, _, _, _ | .bellatrix, .capella, h, _, _, _, _ | .bellatrix, .deneb, h, _, _, _, _
  | .bellatrix, .electra, h, _, _, _, _ | .capella, .capella, h, _, _, _, _ | .capella, .deneb, h, _, _, _, _
  | .capella, .electra, h, _, _, _, _ | .deneb, .deneb, h, _, _, _, _ | .deneb, .electra, h, _, _, _, _
  | .electra, .electra, h, _, _, _, _ => by cases h

/-- A state of Deneb without what Capella does not know. -/
def toCapella (x : State .deneb) : State .capella :=
  { genesisTime := x.genesisTime, genesisValidatorsRoot := x.genesisValidatorsRoot, slot := x.slot, fork := x.fork
    latestBlockHeader := x.latestBlockHeader, blockRoots := x.blockRoots, stateRoots := x.stateRoots
    historicalRoots := x.historicalRoots, eth1Data := x.eth1Data, eth1DataVotes := x.eth1DataVotes
    eth1DepositIndex := x.eth1DepositIndex, validators := x.validators, balances := x.balances, randaoMixes := x.randaoMixes
    slashings := x.slashings, previousEpochParticipation := x.previousEpochParticipation
    currentEpochParticipation := x.currentEpochParticipation, justificationBits := x.justificationBits
    previousJustified := x.previousJustified, currentJustified := x.currentJustified, finalized := x.finalized
    inactivityScores := x.inactivityScores, currentSyncCommittee := x.currentSyncCommittee
    nextSyncCommittee := x.nextSyncCommittee
    tail :=
      let t : BeaconState.TailDeneb := x.tail
      (⟨⟨t.exec.parentHash, t.exec.feeRecipient, t.exec.stateRoot, t.exec.receiptsRoot, t.exec.logsBloom, t.exec.prevRandao,
          t.exec.blockNumber, t.exec.gasLimit, t.exec.gasUsed, t.exec.timestamp, t.exec.extraData, t.exec.baseFeePerGas,
          t.exec.blockHash, t.exec.transactionsRoot, t.exec.withdrawalsRoot⟩,
        t.nextWithdrawalIndex, t.nextWithdrawalValidatorIndex, t.summaries⟩ : BeaconState.TailCapella) }

/-- Open objects may have more fields. -/
theorem open_sub {fields fields' : List Field} {ms : List (List Char × Json)} (h : IsObject false fields (.obj ms))
    (hs : ∀ f ∈ fields', f ∈ fields) : IsObject false fields' (.obj ms) := by
  rcases h with ⟨ms', he, h, _⟩ | ⟨_, he, _⟩
  · cases he
    exact .inl ⟨ms, rfl, fun f hf => h f (hs f hf), fun h => by cases h⟩
  · cases he

/-- One field read in another way. -/
theorem object_change {closed : Bool} {pre post : List Field} {n : List Char} {P Q : Json → Prop} {ms : List (List Char × Json)}
    (h : IsObject closed (pre ++ needed n P :: post) (.obj ms)) (hpq : ∀ v, ms.lookup n = some v → P v → Q v) :
    IsObject closed (pre ++ needed n Q :: post) (.obj ms) := by
  have hv := object_lookup h (n := n) (P := P) (by simp)
  rcases h with ⟨ms', he, h, hc⟩ | ⟨_, he, _⟩
  · cases he
    refine .inl ⟨ms, rfl, ?_, ?_⟩
    · intro f hf
      rcases List.mem_append.mp hf with hf | hf
      · exact h f (List.mem_append_left _ hf)
      rcases List.mem_cons.mp hf with rfl | hf
      · rcases h (needed n P) (by simp) with ⟨_, w, hw, _⟩ | ⟨v, h1, w, hw, h2⟩
        · cases hw
        · cases hw
          refine .inr ⟨v, h1, v, rfl, hpq v ?_ h2⟩
          rw [lookup_filter]
          simp only [needed] at h1
          rw [h1]
          rfl
      · exact h f (List.mem_append_right _ (List.mem_cons_of_mem _ hf))
    · intro hcl m hm
      obtain ⟨f, hf, he⟩ := hc hcl m hm
      rcases List.mem_append.mp hf with hf | hf
      · exact ⟨f, List.mem_append_left _ hf, he⟩
      rcases List.mem_cons.mp hf with rfl | hf
      · exact ⟨needed n Q, by simp, he⟩
      · exact ⟨f, List.mem_append_right _ (List.mem_cons_of_mem _ hf), he⟩
  · cases he

theorem deneb_as_capella (lib : Lib) (ms hs : List (List Char × Json)) (x : State .deneb) (h : StateJson lib .deneb (.obj ms) x)
    (hh : ms.lookup (chars% "latest_execution_payload_header") = some (.obj hs)) :
    StateJson lib .capella (.obj ms) (toCapella x) := by
  refine object_change (pre := (stateFields lib .deneb x).take 24) (post := (stateFields lib .deneb x).drop 25)
    (n := chars% "latest_execution_payload_header") (P := (ExecDenebJson lib.toBlock.toLib · (x.tail : BeaconState.TailDeneb).exec))
    h ?_
  intro v hv hP
  rw [hh] at hv
  cases hv
  refine open_sub hP ?_
  intro f hf
  exact List.mem_append_left [_, _] hf

/-! ## A pending deposit with a wrong signature -/

theorem lookup_replace {n k : List Char} {w : Json} : ∀ (ms : List (List Char × Json)),
    (ms.map fun m => if m.1 = n then (m.1, w) else m).lookup k =
      if k = n then (ms.lookup k).map (fun _ => w) else ms.lookup k
  | [] => by simp
  | (a, v) :: ms => by
    have ih := lookup_replace (n := n) (k := k) (w := w) ms
    by_cases ha : a = n
    · subst ha
      by_cases hk : k = a
      · subst hk; simp [List.lookup]
      · have : (k == a) = false := beq_eq_false_iff_ne.mpr hk
        simp only [List.map_cons, if_true, List.lookup, this, ih]
    · by_cases hk : k = a
      · subst hk; simp [List.lookup, ha]
      · have : (k == a) = false := beq_eq_false_iff_ne.mpr hk
        simp only [List.map_cons, ha, if_false, List.lookup, this, ih]

theorem fst_replace {n : List Char} {w : Json} (ms : List (List Char × Json)) :
    (ms.map fun m => if m.1 = n then (m.1, w) else m).map (·.1) = ms.map (·.1) := by
  rw [List.map_map]
  refine List.map_congr_left fun m _ => ?_
  simp only [Function.comp]
  split <;> rfl

theorem once_fst (names : List (List Char)) (ms : List (List Char × Json)) :
    once names ms = names.all fun n => ((ms.map (·.1)).filter (· == n)).length ≤ 1 := by
  unfold once
  congr 1
  funext n
  rw [List.filter_map, List.length_map]
  rfl

theorem any_fst (p : List Char → Bool) (ms : List (List Char × Json)) : ms.any (fun m => p m.1) = (ms.map (·.1)).any p := by
  rw [List.any_map]
  rfl

/-- What a structure reads of an object. -/
theorem struct_look {α β} {closed : Bool} {r : Members α} {f : α → β} {g : β → α} {ms ms' : List (List Char × Json)} {y : β}
    (h : (struct closed r f g).de (.obj ms) = .ok y) (hf : ms'.map (·.1) = ms.map (·.1)) :
    (struct closed r f g).de (.obj ms') = (r.de fun n => ms'.lookup n).map f := by
  simp only [struct] at h ⊢
  rw [once_fst, any_fst (fun n => !r.names.contains n)] at h ⊢
  rw [hf]
  split at h
  · cases h
  · next h1 =>
    split at h
    · cases h
    · next h2 => rw [if_neg h1, if_neg h2]

theorem list_panic {α} {t : JTy α} {v : Json} (h : t.de v = .panic) (vs : List Json) (n : Nat) :
    (boundedList t n).de (.arr (v :: vs)) = .panic := by
  simp [boundedList, readAll, h, Res.bind]

theorem cons_panic {α β} {name : List Char} {t : JTy α} {r : Members β} {look : List Char → Option Json} {v : Json}
    (hv : look name = some v) (h : t.de v = .panic) : (Members.cons name t r).de look = .panic := by
  simp [Members.cons, hv, h, Res.bind]

end Verif.StateJson
