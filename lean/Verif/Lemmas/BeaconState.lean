import Verif.Model.BeaconState
import Verif.Lemmas.BeaconBlock

/-! Beacon states: the codecs are sound, the roots binding. -/

namespace Verif.BeaconState
open Verif.Ssz Verif.TreeHash Verif.BeaconBlock
open Verif.SszT hiding u256 byteList list varList vector
open Verif.LightClient (Header)
open Verif.HeaderValidator (Fork leNode depthFor)
open Verif.TreeHash (u64 u256 byteList list varList vector)

theorem binding_u8 : Binding u8 where
  eq H x y h _ := by
    simp only [u8, HTree.root] at h
    have hx := x.toNat_lt
    have hy := y.toNat_lt
    exact UInt8.toNat_inj.mp (leNode_inj (by omega) (by omega) h)
  packed _ := ⟨1, by simp, rfl, fun _ => rfl, fun x y h => by cases h; rfl⟩

theorem good_u8 : Good u8 := ⟨sound_u8, binding_u8⟩

theorem sound_flag : Sound flag.codec where
  rt x _ := by cases x <;> rfl
  canon b x h := by
    simp only [flag] at h ⊢
    split at h
    · cases h; simp_all
    · split at h
      · cases h; simp_all
      · cases h
  fixed x n h := by cases h; rfl

theorem good_flag : Good flag where
  sound := sound_flag
  binding :=
    { eq := fun H x y h _ => by
        have : ∀ b : Bool, (if b then 1 else 0) < 2 ^ 256 := by decide
        have h' := leNode_inj (this x) (this y) h
        revert h'; cases x <;> cases y <;> simp
      packed := fun _ => ⟨1, by simp, rfl, fun _ => rfl, fun x y h => by
        revert h; cases x <;> cases y <;> simp [flag]⟩ }

theorem good_fourBits : Good fourBits where
  sound :=
    { rt := fun x _ => by
        show (if h : x.1.toNat < 16 then some (⟨x.1, h⟩ : FourBits) else none) = some x
        rw [dif_pos x.2]
      canon := fun b x h => by
        simp only [fourBits] at h ⊢
        match b with
        | [] => cases h
        | [c] =>
          simp only at h
          split at h
          · cases h; rfl
          · cases h
        | _ :: _ :: _ => cases h
      fixed := fun x n h => by cases h; rfl }
  binding :=
    { eq := fun H x y h _ => by
        simp only [fourBits, HTree.root] at h
        have hx := x.2
        have hy := y.2
        exact Subtype.ext (UInt8.toNat_inj.mp (leNode_inj (by omega) (by omega) h))
      packed := fun h => by cases h }

theorem good_as {α β} {r : Fields α} (hr : FieldsGood r) {f : α → β} {g : β → α} (hfg : ∀ y, f (g y) = y)
    (hgf : ∀ x, g (f x) = x) : FieldsGood (fieldsAs r f g) where
  sound :=
    { fits := fun x => hr.sound.fits (g x)
      rt := fun x h => by
        simp only [fieldsAs] at h ⊢
        rw [hr.sound.rt (g x) h, Option.map_some, hfg]
      canon := fun vs x h => by
        simp only [fieldsAs] at h ⊢
        obtain ⟨y, hy, rfl⟩ := Option.map_eq_some_iff.mp h
        rw [hgf]; exact hr.sound.canon vs y hy }
  binding :=
    { len := fun x => hr.binding.len (g x)
      eq := fun H x y h hc => by
        have := hr.binding.eq H (g x) (g y) h hc
        rw [← hfg x, this, hfg] }

theorem good_forkData : Good forkData :=
  good_struct (good_cons (good_bytes 4) <|
    good_cons (good_bytes 4) <|
    good_cons good_u64 good_nil) (fun _ => rfl) (fun _ => rfl)
theorem good_validator : Good validator :=
  good_struct (good_cons (good_bytes 48) <|
    good_cons good_b256 <|
    good_cons good_u64 <|
    good_cons good_flag <|
    good_cons good_u64 <|
    good_cons good_u64 <|
    good_cons good_u64 <|
    good_cons good_u64 good_nil) (fun _ => rfl) (fun _ => rfl)
theorem good_syncCommittee : Good syncCommittee :=
  good_struct (good_cons (good_vector (good_bytes 48) rfl 512) <|
    good_cons (good_bytes 48) good_nil) (fun _ => rfl) (fun _ => rfl)
theorem good_execBellatrix : Good execBellatrix :=
  good_struct (good_cons good_b256 <|
    good_cons (good_bytes 20) <|
    good_cons good_b256 <|
    good_cons good_b256 <|
    good_cons (good_bytes 256) <|
    good_cons good_b256 <|
    good_cons good_u64 <|
    good_cons good_u64 <|
    good_cons good_u64 <|
    good_cons good_u64 <|
    good_cons (good_byteList (by decide)) <|
    good_cons good_u256 <|
    good_cons good_b256 <|
    good_cons good_b256 good_nil) (fun _ => rfl) (fun _ => rfl)
theorem good_execCapella : Good execCapella :=
  good_struct (good_cons good_b256 <|
    good_cons (good_bytes 20) <|
    good_cons good_b256 <|
    good_cons good_b256 <|
    good_cons (good_bytes 256) <|
    good_cons good_b256 <|
    good_cons good_u64 <|
    good_cons good_u64 <|
    good_cons good_u64 <|
    good_cons good_u64 <|
    good_cons (good_byteList (by decide)) <|
    good_cons good_u256 <|
    good_cons good_b256 <|
    good_cons good_b256 <|
    good_cons good_b256 good_nil) (fun _ => rfl) (fun _ => rfl)
theorem good_execDeneb : Good execDeneb :=
  good_struct (good_cons good_b256 <|
    good_cons (good_bytes 20) <|
    good_cons good_b256 <|
    good_cons good_b256 <|
    good_cons (good_bytes 256) <|
    good_cons good_b256 <|
    good_cons good_u64 <|
    good_cons good_u64 <|
    good_cons good_u64 <|
    good_cons good_u64 <|
    good_cons (good_byteList (by decide)) <|
    good_cons good_u256 <|
    good_cons good_b256 <|
    good_cons good_b256 <|
    good_cons good_b256 <|
    good_cons good_u64 <|
    good_cons good_u64 good_nil) (fun _ => rfl) (fun _ => rfl)
theorem good_summary : Good summary :=
  good_struct (good_cons good_b256 <|
    good_cons good_b256 good_nil) (fun _ => rfl) (fun _ => rfl)
theorem good_pendingDeposit : Good pendingDeposit :=
  good_struct (good_cons (good_bytes 48) <|
    good_cons good_b256 <|
    good_cons good_u64 <|
    good_cons (good_bytes 96) <|
    good_cons good_u64 good_nil) (fun _ => rfl) (fun _ => rfl)
theorem good_pendingWithdrawal : Good pendingWithdrawal :=
  good_struct (good_cons good_u64 <|
    good_cons good_u64 <|
    good_cons good_u64 good_nil) (fun _ => rfl) (fun _ => rfl)
theorem good_pendingConsolidation : Good pendingConsolidation :=
  good_struct (good_cons good_u64 <|
    good_cons good_u64 good_nil) (fun _ => rfl) (fun _ => rfl)
theorem good_tailBellatrix : FieldsGood tailBellatrix :=
  good_as (good_cons good_execBellatrix good_nil) (fun _ => rfl) (fun _ => rfl)
theorem good_tailCapella : FieldsGood tailCapella :=
  good_as (good_cons good_execCapella <|
    good_cons good_u64 <|
    good_cons good_u64 <|
    good_cons (good_list good_summary (by decide) rfl (by decide)) good_nil) (fun _ => rfl) (fun _ => rfl)
theorem good_tailDeneb : FieldsGood tailDeneb :=
  good_as (good_cons good_execDeneb <|
    good_cons good_u64 <|
    good_cons good_u64 <|
    good_cons (good_list good_summary (by decide) rfl (by decide)) good_nil) (fun _ => rfl) (fun _ => rfl)
theorem good_tailElectra : FieldsGood tailElectra :=
  good_as (good_cons good_execDeneb <|
    good_cons good_u64 <|
    good_cons good_u64 <|
    good_cons (good_list good_summary (by decide) rfl (by decide)) <|
    good_cons good_u64 <|
    good_cons good_u64 <|
    good_cons good_u64 <|
    good_cons good_u64 <|
    good_cons good_u64 <|
    good_cons good_u64 <|
    good_cons (good_list good_pendingDeposit (by decide) rfl (by decide)) <|
    good_cons (good_list good_pendingWithdrawal (by decide) rfl (by decide)) <|
    good_cons (good_list good_pendingConsolidation (by decide) rfl (by decide)) good_nil) (fun _ => rfl) (fun _ => rfl)
theorem good_batch : Good batch :=
  good_struct (good_cons (good_vector good_b256 rfl 8192) <|
    good_cons (good_vector good_b256 rfl 8192) good_nil) (fun _ => rfl) (fun _ => rfl)

theorem good_tail : (f : Fork) → FieldsGood (tail f)
  | .bellatrix => good_tailBellatrix
  | .capella => good_tailCapella
  | .deneb => good_tailDeneb
  | .electra => good_tailElectra

theorem good_state (f : Fork) : Good (state f) :=
  good_struct (good_cons good_u64 <|
    good_cons good_b256 <|
    good_cons good_u64 <|
    good_cons good_forkData <|
    good_cons good_header <|
    good_cons (good_vector good_b256 rfl 8192) <|
    good_cons (good_vector good_b256 rfl 8192) <|
    good_cons (good_list good_b256 (by decide) rfl (by decide)) <|
    good_cons good_eth1Data <|
    good_cons (good_list good_eth1Data (by decide) rfl (by decide)) <|
    good_cons good_u64 <|
    good_cons (good_list good_validator (by decide) rfl (by decide)) <|
    good_cons (good_list good_u64 (by decide) rfl (by decide)) <|
    good_cons (good_vector good_b256 rfl 65536) <|
    good_cons (good_vector good_u64 rfl 8192) <|
    good_cons (good_list good_u8 (by decide) rfl (by decide)) <|
    good_cons (good_list good_u8 (by decide) rfl (by decide)) <|
    good_cons good_fourBits <|
    good_cons good_checkpoint <|
    good_cons good_checkpoint <|
    good_cons good_checkpoint <|
    good_cons (good_list good_u64 (by decide) rfl (by decide)) <|
    good_cons good_syncCommittee <|
    good_cons good_syncCommittee <|
    good_tail f) (fun _ => rfl) (fun _ => rfl)

end Verif.BeaconState
