import Verif.Lemmas.StateJson
import Verif.Props.BlockJson
import Verif.Lemmas.ExceptEq

/-!
# C108: the JSON of beacon states

A consensus provider may send the state the bridge asked for as JSON. `Props/StateJsonSpec.lean` says which document stands for which
state of which fork. The theorems say that the readers of each fork take exactly these documents and give the state, in any order of
the fields, and what the answer of a provider gives.

Four claims fail. The reader that does not know the fork takes the documents of Deneb's states for states of Capella, because the
headers of payloads are open: what they do not know they leave out. What is written is not read back by a library that insists on
quotes, because the lists of numbers are written without them. A pending deposit with a signature of other than 96 bytes ends the
task with a panic. Public keys of any length are taken.
-/

namespace Verif.Props
open Verif.E2store (Res)
open Verif.JsonRpc (Json)
open Verif.StateJson (Lib)
open Verif.HeaderValidator (Fork)
open Verif.BeaconState (State AnyState)
open LcJsonSpec BlockJsonSpec StateJsonSpec
open scoped Verif.Provider

/-- Reading gives `x` for exactly the documents that stand for `x`, for each fork. -/
theorem C108_reads (lib : Lib) (f : Fork) (j : Json) :
    (∀ x, (StateJson.state lib f).de j = .ok x ↔ StateJson lib f j x) ∧
    (∀ x, (StateJson.forkData lib).de j = .ok x ↔ ForkDataJson lib j x) ∧
    (∀ x, (StateJson.validator lib).de j = .ok x ↔ ValidatorJson lib j x) ∧
    (∀ x, (StateJson.execBellatrix lib).de j = .ok x ↔ ExecBellatrixJson lib j x) ∧
    (∀ x, (StateJson.summary lib).de j = .ok x ↔ SummaryJson lib j x) ∧
    (∀ x, (StateJson.pendingDeposit lib).de j = .ok x ↔ PendingDepositJson lib j x) :=
  ⟨StateJson.state_exact lib f j, (StateJson.good_forkData lib).exact j, (StateJson.good_validator lib).exact j,
    (StateJson.good_execBellatrix lib).exact j, (StateJson.good_summary lib).exact j, (StateJson.good_pendingDeposit lib).exact j⟩

/-- The order of the fields of an object makes no difference. -/
theorem C108_order (lib : Lib) (f : Fork) (ms ms' : List (List Char × Json)) (hp : ms.Perm ms') (x : State f)
    (h : (StateJson.state lib f).de (.obj ms) = .ok x) : (StateJson.state lib f).de (.obj ms') = .ok x :=
  (StateJson.state_exact lib f _ x).mpr (LcJson.isObject_perm hp ((StateJson.state_exact lib f _ x).mp h))

/-- What the answer of a provider gives: the state that its `data` stand for. -/
theorem C108_answer (lib : Lib) (j : Json) (x : State .electra) :
    StateJson.answer lib j = .ok x ↔ AnswerJson (StateJson lib .electra) j x := by
  have e : StateJson.answer lib j =
      LcJson.response (StateJson.stateWith (StateJson.quotedOf lib) (StateJson.flagsOf lib) lib .electra) j := by
    unfold StateJson.answer LcJson.response
    have hd : (LcJson.responseMembers (StateJson.state lib .electra)).de = (LcJson.responseMembers
        (StateJson.stateWith (StateJson.quotedOf lib) (StateJson.flagsOf lib) lib .electra)).de := by
      funext look
      simp only [LcJson.responseMembers, LcJson.Members.opt, LcJson.Members.cons, StateJson.state_de]
    rw [StateJson.struct_de hd rfl]
  rw [e]
  exact LcJson.response_ok LcJson.hered_true (StateJson.good_quoted_state lib .electra) j x

/-- If the library takes numbers without quotes, what is written is read back. -/
theorem C108_round_trip_partial (lib : Lib) (h : TakesBare lib) (f : Fork) (x : State f) :
    (StateJson.state lib f).de ((StateJson.state lib f).ser x) = .ok x :=
  ((StateJson.good_state lib f h).exact _ _).mpr ((StateJson.good_state lib f h).writes x)

/-- **Violation.** If the library insists on quotes, nothing that is written is read back. -/
theorem C108_written_violated (lib : Lib) (h : ∀ n, lib.quoted (.num n) = none) (f : Fork) (x y : State f) :
    (StateJson.state lib f).de ((StateJson.state lib f).ser x) ≠ .ok y := by
  intro hy
  have hs := (StateJson.state_exact lib f _ y).mp hy
  have hf : (stateFields lib f y)[14]? = some (needed (chars% "slashings") (IsArray (IsQuoted lib.toBlock) · y.slashings.1)) := by
    cases f <;> rfl
  obtain ⟨ms, hms, hl⟩ : ∃ ms, (StateJson.state lib f).ser x = .obj ms ∧
      ms.lookup (chars% "slashings") = some (.arr (x.slashings.1.map (StateJson.bare lib).ser)) := by
    cases f <;> exact ⟨_, rfl, rfl⟩
  rw [hms] at hs
  obtain ⟨v, h1, js, h2, h3⟩ := BlockJson.object_lookup hs (List.mem_of_getElem? hf)
  rw [hl] at h1
  cases h1
  cases h2
  obtain ⟨a, as, ha⟩ : ∃ a as, x.slashings.1 = a :: as := by
    cases hx : x.slashings.1 with
    | nil => have := x.slashings.2; rw [hx] at this; cases this
    | cons a as => exact ⟨a, as, rfl⟩
  rw [ha] at h3
  generalize y.slashings.1 = ys at h3
  cases h3 with
  | cons h4 _ =>
    rcases h4 with ⟨t, ht, _⟩ | ⟨_, h5⟩
    · cases ht
    · have := h a.toNat
      rw [show (StateJson.bare lib).ser a = .num a.toNat from rfl] at h5
      rw [this] at h5
      cases h5

/-- The reader that does not know the fork gives only what the document stands for, and finds the states of all forks but
Deneb. -/
theorem C108_fork_partial (lib : Lib) (j : Json) (x : AnyState) :
    ((StateJson.anyState lib).de j = .ok x → StateJson lib x.1 j x.2) ∧
    (x.1 ≠ .deneb → StateJson lib x.1 j x.2 → (StateJson.anyState lib).de j = .ok x) := by
  obtain ⟨f, x⟩ := x
  constructor
  · intro h
    simp only [StateJson.anyState, BlockJson.untagged, BlockJson.orElse_ok, LcJson.map_ok] at h
    rcases h with ⟨y, h, he⟩ | ⟨_, ⟨y, h, he⟩ | ⟨_, ⟨y, h, he⟩ | ⟨_, y, h, he⟩⟩⟩ <;> cases he <;>
      exact (StateJson.state_exact lib _ _ _).mp h
  · intro hne h
    have h0 := (StateJson.state_exact lib f j x).mpr h
    have hm : ∀ f', BlockJson.before f' f = true →
        ((StateJson.state lib f').de j).map (fun x => (⟨f', x⟩ : AnyState)) = .err := by
      intro f' hb
      rw [StateJson.state_err lib f f' hb (fun hc => hne hc.1) j x h]
      rfl
    simp only [StateJson.anyState, BlockJson.untagged]
    cases f with
    | bellatrix => rw [h0]; rfl
    | capella => rw [hm .bellatrix rfl, h0]; rfl
    | deneb => exact absurd rfl hne
    | electra => rw [hm .bellatrix rfl, hm .capella rfl, hm .deneb rfl, h0]; rfl

/-- **Violation.** Documents that stand for states of Deneb, with objects as usual, are read as states of Capella; what the header
of the payload says about blobs is lost. -/
theorem C108_fork_violated (lib : Lib) (ms hs : List (List Char × Json)) (x : State .deneb) (h : StateJson lib .deneb (.obj ms) x)
    (hh : ms.lookup (chars% "latest_execution_payload_header") = some (.obj hs)) :
    ∃ y : State .capella, (StateJson.anyState lib).de (.obj ms) = .ok ⟨.capella, y⟩ ∧ y.slot = x.slot := by
  have h1 := StateJson.state_err lib .deneb .bellatrix rfl (by simp) _ x h
  have h2 := (StateJson.state_exact lib .capella _ _).mpr (StateJson.deneb_as_capella lib ms hs x h hh)
  refine ⟨StateJson.toCapella x, ?_, rfl⟩
  simp only [StateJson.anyState, BlockJson.untagged]
  rw [h1, h2]
  rfl

/-- Reading panics only if there is a signature of other than 96 bytes in the document. -/
theorem C108_abort_partial (lib : Lib) (f : Fork) (j : Json) :
    ((StateJson.state lib f).de j = .panic → Wrong j) ∧ ((StateJson.anyState lib).de j = .panic → Wrong j) ∧
    (StateJson.answer lib j = .panic → Wrong j) := by
  refine ⟨StateJson.aborts_state lib f j, ?_, BlockJson.aborts_response (StateJson.aborts_state lib .electra)⟩
  have hor : ∀ {α} (r next : Res α), BlockJson.orElse r next = .panic → r = .panic ∨ next = .panic := by
    intro α r next h
    cases r <;> simp_all [BlockJson.orElse]
  intro h
  simp only [StateJson.anyState, BlockJson.untagged] at h
  rcases hor _ _ h with h | h
  · exact StateJson.aborts_state lib _ j (LcJson.map_panic.mp h)
  rcases hor _ _ h with h | h
  · exact StateJson.aborts_state lib _ j (LcJson.map_panic.mp h)
  rcases hor _ _ h with h | h
  · exact StateJson.aborts_state lib _ j (LcJson.map_panic.mp h)
  · exact StateJson.aborts_state lib _ j (LcJson.map_panic.mp h)

/-- **Violation.** Any document of a state of Electra makes reading panic once its pending deposits begin with one that has a
signature of another length and is right otherwise. -/
theorem C108_signature_violated (lib : Lib) (ms : List (List Char × Json)) (x : State .electra)
    (h : StateJson lib .electra (.obj ms) x) (d : BeaconState.PendingDeposit) (key credentials amount sig slot : Json) (more : List Json)
    (bs : Bytes) (h1 : IsKey key d.pubkey) (h2 : IsWord lib.toBlock.toLib credentials d.withdrawalCredentials)
    (h3 : IsNumber lib.toBlock.toLib amount d.amount) (hs : IsAnyHex sig bs) (hl : bs.length ≠ 96) :
    (StateJson.state lib .electra).de (.obj (ms.map fun m => if m.1 = chars% "pending_deposits" then
      (m.1, .arr (.obj [(chars% "pubkey", key), (chars% "withdrawal_credentials", credentials), (chars% "amount", amount),
        (chars% "signature", sig), (chars% "slot", slot)] :: more)) else m)) = .panic := by
  have hsig : LcJson.signature.de sig = .panic := by
    obtain ⟨c, ds, hc, hd, rfl⟩ := hs
    have := (LcJson.anyHex_iff ('0' :: c :: ds) bs).mpr ⟨c, ds, hc, hd, rfl⟩
    simp only [LcJson.signature, this, LcJson.ofExcept, Res.bind]
    rw [dif_neg hl]
  have hdep : (StateJson.pendingDeposit lib).de (.obj [(chars% "pubkey", key), (chars% "withdrawal_credentials", credentials),
      (chars% "amount", amount), (chars% "signature", sig), (chars% "slot", slot)]) = .panic := by
    have e : (StateJson.pendingDeposit lib).de (.obj [(chars% "pubkey", key), (chars% "withdrawal_credentials", credentials),
        (chars% "amount", amount), (chars% "signature", sig), (chars% "slot", slot)]) =
        ((LcJson.pubkey.de key).bind fun a => (((LcJson.word lib.toBlock.toLib).de credentials).bind fun b =>
          (((LcJson.u64 lib.toBlock.toLib).de amount).bind fun c => ((LcJson.signature.de sig).bind fun e =>
            (((LcJson.u64 lib.toBlock.toLib).de slot).bind fun g => (Res.ok ()).map fun u => (g, u)).map fun r => (e, r)).map
            fun r => (c, r)).map fun r => (b, r)).map fun r => (a, r)).map
          fun (a, b, c, e, g, _) => (⟨a, b, c, e, g⟩ : BeaconState.PendingDeposit) := rfl
    rw [e, hsig, ((LcJson.good_pubkey (B := fun _ => False)).exact _ _).mpr h1,
      ((LcJson.good_word (B := fun _ => False) lib.toBlock.toLib).exact _ _).mpr h2,
      ((LcJson.good_u64 (B := fun _ => False) lib.toBlock.toLib).exact _ _).mpr h3]
    rfl
  generalize Json.obj [(chars% "pubkey", key), (chars% "withdrawal_credentials", credentials), (chars% "amount", amount),
    (chars% "signature", sig), (chars% "slot", slot)] = bad at hdep ⊢
  generalize hw : Json.arr (bad :: more) = w
  have hlist : (BlockJson.boundedList (StateJson.pendingDeposit lib) 134217728).de w = .panic := by
    rw [← hw]
    exact StateJson.list_panic hdep more _
  have hok := (StateJson.good_quoted_state lib .electra).exact (.obj ms) x |>.mpr h
  rw [StateJson.state_de]
  refine (StateJson.struct_look hok (StateJson.fst_replace ms)).trans (LcJson.map_panic.mpr ?_)
  have hall : ∀ m ∈ stateFields lib .electra x, m.2 (ms.lookup m.1) := by
    rcases h with ⟨ms', he, hf, _⟩ | ⟨_, he, _⟩
    · cases he
      intro m hm
      refine (LcJson.field_once m ?_).mpr (hf m hm)
      rcases hf m hm with ⟨h, _⟩ | ⟨v, h, _⟩ <;> simp [h]
    · cases he
  have look : ∀ m ∈ stateFields lib .electra x, m.1 ≠ chars% "pending_deposits" →
      m.2 ((ms.map fun m => if m.1 = chars% "pending_deposits" then (m.1, w) else m).lookup m.1) := by
    intro m hm hne
    rw [StateJson.lookup_replace, if_neg hne]
    exact hall m hm
  have sad : StateJson.Sad (fun _ => .panic) := .inr fun _ => rfl
  refine StateJson.common_then lib .electra .electra x _ (fun m hm hn => look m hm fun he => ?_) sad (e := fun _ => .panic) ?_
  · rw [he] at hn
    exact absurd hn (by decide +kernel)
  · have at' : ∀ (k : Nat) (m : Field), (stateFields lib .electra x)[k]? = some m → m.1 ≠ chars% "pending_deposits" →
        m.2 ((ms.map fun m => if m.1 = chars% "pending_deposits" then (m.1, w) else m).lookup m.1) :=
      fun k m hm => look m (List.mem_of_getElem? hm)
    obtain ⟨v, hv, _⟩ := hall (needed (chars% "pending_deposits") _) (List.mem_of_getElem? (i := 34) rfl)
    refine LcJson.map_panic.mpr <|
      StateJson.cons_then sad (LcJson.good_execDeneb LcJson.hered_true lib.toBlock.toLib) (at' 24 (needed _ _) rfl (by simp [needed])) <|
      StateJson.cons_then sad (LcJson.good_u64 lib.toBlock.toLib) (at' 25 (needed _ _) rfl (by simp [needed])) <|
      StateJson.cons_then sad (LcJson.good_u64 lib.toBlock.toLib) (at' 26 (needed _ _) rfl (by simp [needed])) <|
      StateJson.cons_then sad (BlockJson.good_list (StateJson.good_summary lib) 16777216) (at' 27 (needed _ _) rfl (by simp [needed])) <|
      StateJson.cons_then sad (LcJson.good_u64 lib.toBlock.toLib) (at' 28 (needed _ _) rfl (by simp [needed])) <|
      StateJson.cons_then sad (LcJson.good_u64 lib.toBlock.toLib) (at' 29 (needed _ _) rfl (by simp [needed])) <|
      StateJson.cons_then sad (LcJson.good_u64 lib.toBlock.toLib) (at' 30 (needed _ _) rfl (by simp [needed])) <|
      StateJson.cons_then sad (LcJson.good_u64 lib.toBlock.toLib) (at' 31 (needed _ _) rfl (by simp [needed])) <|
      StateJson.cons_then sad (LcJson.good_u64 lib.toBlock.toLib) (at' 32 (needed _ _) rfl (by simp [needed])) <|
      StateJson.cons_then sad (LcJson.good_u64 lib.toBlock.toLib) (at' 33 (needed _ _) rfl (by simp [needed])) <|
      StateJson.cons_panic (v := w) ?_ hlist
    rw [StateJson.lookup_replace, if_pos rfl]
    simp only [needed] at hv
    rw [hv]
    rfl

/-- **Violation.** A validator is read whatever the length of its key is. -/
theorem C108_keys_violated (lib : Lib) (x : BeaconState.Validator) (ms : List (List Char × Json)) (key : Json) (bs : Bytes)
    (h : ValidatorJson lib (.obj ((chars% "pubkey", key) :: ms)) x) (key' : Json) (hk : IsAnyHex key' bs) :
    ∃ y, (StateJson.validator lib).de (.obj ((chars% "pubkey", key') :: ms)) = .ok y ∧
      y.pubkey.1 = (bs ++ List.replicate 48 0).take 48 := by
  refine ⟨{ x with pubkey := LcJson.resize 48 bs }, ((StateJson.good_validator lib).exact _ _).mpr ?_, LcJson.resize_eq bs 48⟩
  rcases h with ⟨ms', he, hf, _⟩ | ⟨_, he, _⟩
  · cases he
    refine .inl ⟨_, rfl, ?_, fun h => by cases h⟩
    intro f hm
    rcases List.mem_cons.mp hm with rfl | hm
    · rcases hf (needed (chars% "pubkey") _) (List.mem_cons_self ..) with ⟨h0, _⟩ | ⟨v, h0, _⟩
      · simp [needed] at h0
      · refine .inr ⟨key', ?_, key', rfl, bs, hk, LcJson.resize_eq bs 48⟩
        simp only [needed] at h0 ⊢
        rw [List.filter_cons_of_pos (by simp)] at h0 ⊢
        have := (List.cons.inj h0).2
        rw [this]
    · have hne : f.1 ≠ chars% "pubkey" := by
        simp only [List.mem_cons, List.not_mem_nil, or_false] at hm
        rcases hm with rfl | rfl | rfl | rfl | rfl | rfl | rfl <;> simp [needed]
      have := hf f (List.mem_cons_of_mem _ hm)
      rw [List.filter_cons_of_neg (by simpa using Ne.symm hne)] at this ⊢
      exact this
  · cases he

/-! ## Examples -/

namespace StateJsonExamples

/-- A library that takes nothing else, and one that takes numbers without quotes. -/
def strict : Lib := ⟨⟨⟨fun _ => none, fun _ _ => none, fun _ => none⟩, fun _ => none⟩, fun _ => none, fun _ => none⟩
def lax : Lib := { strict with
  quoted := fun j => match j with
    | .num n => some (UInt64.ofNat n)
    | _ => none
  flags := fun j => match j with
    | .num n => some (UInt8.ofNat n)
    | _ => none }

example : TakesBare lax := ⟨fun n => by simp [lax], fun n => by simp [lax]⟩
example : ∀ n, strict.quoted (.num n) = none := fun _ => rfl

/-- Each state of each fork has a document, an object whose header is an object, so the hypotheses of the violations are met. -/
example (lib : Lib) (x : State .deneb) : ∃ ms hs, StateJson lib .deneb (.obj ms) x ∧
    ms.lookup (chars% "latest_execution_payload_header") = some (.obj hs) :=
  ⟨_, _, (StateJson.good_quoted_state lib .deneb).writes x, rfl⟩
example (lib : Lib) (x : State .electra) : ∃ ms, StateJson lib .electra (.obj ms) x :=
  ⟨_, (StateJson.good_quoted_state lib .electra).writes x⟩
example : IsAnyHex (.str (chars% "0xaa")) [0xaa] := (LcJson.anyHex_iff _ _).mp (by decide +kernel)

def validator (key : List Char) : List (List Char × Json) :=
  [(chars% "pubkey", .str key), (chars% "withdrawal_credentials", BlockJsonExamples.hex 32 1),
    (chars% "effective_balance", .str (chars% "32000000000")), (chars% "slashed", .bool false),
    (chars% "activation_eligibility_epoch", .str (chars% "1")), (chars% "activation_epoch", .str (chars% "2")),
    (chars% "exit_epoch", .str (chars% "18446744073709551615")), (chars% "withdrawable_epoch", .num 3)]

/-- What is looked at below. -/
def keyOf : Res BeaconState.Validator → Option (Bytes × Nat × Nat)
  | .ok x => some (x.pubkey.1.take 2, x.exitEpoch.toNat, x.withdrawableEpoch.toNat)
  | _ => none

/-- A validator with a key of one byte. -/
example : keyOf ((StateJson.validator strict).de (.obj (validator (chars% "0xaa")))) = some ([0xaa, 0], 2 ^ 64 - 1, 3) := by
  decide +kernel

/-- Flags are numbers of 8 bits in quotes, versions are four bytes, and the bits of the justified epochs are one byte below 16. -/
example : (StateJson.flags strict).de (.str (chars% "7")) = .ok 7 ∧ (StateJson.flags strict).de (.str (chars% "256")) = .err ∧
    (StateJson.flags strict).de (.num 7) = .err ∧ (StateJson.flags lax).de (.num 7) = .ok 7 := by decide +kernel
example : (StateJson.version strict).de (.str (chars% "0x05000000")) = .ok ⟨[5, 0, 0, 0], rfl⟩ ∧
    (StateJson.version strict).de (.str (chars% "0x050000")) = .err := by decide +kernel
example : StateJson.fourBits.de (.str (chars% "0x0f")) = .ok ⟨15, by decide⟩ ∧
    StateJson.fourBits.de (.str (chars% "0x1f")) = .err := by decide +kernel

end StateJsonExamples
end Verif.Props
