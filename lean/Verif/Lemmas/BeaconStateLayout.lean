import Verif.Lemmas.BeaconState
import Verif.Lemmas.BeaconBlockLayout
import Verif.Props.BeaconStateSpec

/-! The bytes of beacon states are laid out as the specification says. -/

namespace Verif.BeaconState
open Verif.Ssz Verif.TreeHash Verif.BeaconBlock Verif.Props.BeaconBlockSpec Verif.Props.BeaconStateSpec
open Verif.SszT hiding u256 byteList list varList vector
open Verif.HeaderValidator (Fork)
open Verif.TreeHash (u64 u256 byteList list varList vector)

set_option linter.unusedSimpArgs false

theorem field_u8 : u8.codec.field = .fixed 1 := rfl
theorem field_flag : flag.codec.field = .fixed 1 := rfl
theorem field_fourBits : fourBits.codec.field = .fixed 1 := rfl
theorem enc_flag (x : Bool) : flag.codec.enc x = flagByte x := rfl
theorem enc_fourBits (x : FourBits) : fourBits.codec.enc x = [x.1] := rfl
theorem row_bytes (l : List UInt8) : row u8.codec.enc l = l := by
  induction l with
  | nil => rfl
  | cons b l ih => exact congrArg (b :: ·) ih
theorem row_keys (l : List (BytesN 48)) : row (bytes 48).codec.enc l = row (fun k => k.1) l := rfl
theorem row_ids (l : List Id) : row b256.codec.enc l = row Id.bytes l := rfl
theorem row_u64 (l : List UInt64) : row u64.codec.enc l = row le8 l := rfl

theorem field_forkData : forkData.codec.field = .fixed 16 := rfl
theorem lay_forkData : forkData.codec.enc = forkBytes := by
  funext x
  rw [forkData, struct_layout (good_cons (good_bytes 4) <|
    good_cons (good_bytes 4) <|
    good_cons good_u64 good_nil)]
  simp only [Fields.cons, Fields.nil, Rec.cons, Rec.nil, parts, field_u8, field_flag, field_fourBits, field_u64, field_b256, field_u256, field_bytes, field_byteList, field_list, field_vector, field_header, field_eth1Data, field_checkpoint, enc_flag, enc_fourBits, enc_u64, enc_b256, enc_u256, enc_bytes, enc_byteList, enc_list, enc_vector, row_keys, row_bytes, row_ids, row_u64, lay_header, lay_eth1Data, lay_checkpoint]
  simp [layout, places, rest, forkBytes]

theorem field_validator : validator.codec.field = .fixed 121 := rfl
theorem lay_validator : validator.codec.enc = validatorBytes := by
  funext x
  rw [validator, struct_layout (good_cons (good_bytes 48) <|
    good_cons good_b256 <|
    good_cons good_u64 <|
    good_cons good_flag <|
    good_cons good_u64 <|
    good_cons good_u64 <|
    good_cons good_u64 <|
    good_cons good_u64 good_nil)]
  simp only [Fields.cons, Fields.nil, Rec.cons, Rec.nil, parts, field_u8, field_flag, field_fourBits, field_u64, field_b256, field_u256, field_bytes, field_byteList, field_list, field_vector, field_header, field_eth1Data, field_checkpoint, field_forkData, enc_flag, enc_fourBits, enc_u64, enc_b256, enc_u256, enc_bytes, enc_byteList, enc_list, enc_vector, row_keys, row_bytes, row_ids, row_u64, lay_header, lay_eth1Data, lay_checkpoint, lay_forkData]
  simp [layout, places, rest, validatorBytes]

theorem field_syncCommittee : syncCommittee.codec.field = .fixed 24624 := rfl
theorem lay_syncCommittee : syncCommittee.codec.enc = committeeBytes := by
  funext x
  rw [syncCommittee, struct_layout (good_cons (good_vector (good_bytes 48) rfl 512) <|
    good_cons (good_bytes 48) good_nil)]
  simp only [Fields.cons, Fields.nil, Rec.cons, Rec.nil, parts, field_u8, field_flag, field_fourBits, field_u64, field_b256, field_u256, field_bytes, field_byteList, field_list, field_vector, field_header, field_eth1Data, field_checkpoint, field_forkData, field_validator, enc_flag, enc_fourBits, enc_u64, enc_b256, enc_u256, enc_bytes, enc_byteList, enc_list, enc_vector, row_keys, row_bytes, row_ids, row_u64, lay_header, lay_eth1Data, lay_checkpoint, lay_forkData, lay_validator]
  simp [layout, places, rest, committeeBytes]

theorem field_execBellatrix : execBellatrix.codec.field = .var := rfl
theorem lay_execBellatrix : execBellatrix.codec.enc = execBellatrixBytes := by
  funext x
  rw [execBellatrix, struct_layout (good_cons good_b256 <|
    good_cons (good_bytes 20) <|
    good_cons good_b256 <|
    good_cons good_b256 <|
    good_cons (good_bytes 256) <|
    good_cons good_b256 <|
    good_cons good_u64 <|
    good_cons good_u64 <|
    good_cons good_u64 <|
    good_cons good_u64 <|
    good_cons (good_byteList (by decide)) <|
    good_cons good_u256 <|
    good_cons good_b256 <|
    good_cons good_b256 good_nil)]
  simp only [Fields.cons, Fields.nil, Rec.cons, Rec.nil, parts, field_u8, field_flag, field_fourBits, field_u64, field_b256, field_u256, field_bytes, field_byteList, field_list, field_vector, field_header, field_eth1Data, field_checkpoint, field_forkData, field_validator, field_syncCommittee, enc_flag, enc_fourBits, enc_u64, enc_b256, enc_u256, enc_bytes, enc_byteList, enc_list, enc_vector, row_keys, row_bytes, row_ids, row_u64, lay_header, lay_eth1Data, lay_checkpoint, lay_forkData, lay_validator, lay_syncCommittee]
  rfl

theorem field_execCapella : execCapella.codec.field = .var := rfl
theorem lay_execCapella : execCapella.codec.enc = execCapellaBytes := by
  funext x
  rw [execCapella, struct_layout (good_cons good_b256 <|
    good_cons (good_bytes 20) <|
    good_cons good_b256 <|
    good_cons good_b256 <|
    good_cons (good_bytes 256) <|
    good_cons good_b256 <|
    good_cons good_u64 <|
    good_cons good_u64 <|
    good_cons good_u64 <|
    good_cons good_u64 <|
    good_cons (good_byteList (by decide)) <|
    good_cons good_u256 <|
    good_cons good_b256 <|
    good_cons good_b256 <|
    good_cons good_b256 good_nil)]
  simp only [Fields.cons, Fields.nil, Rec.cons, Rec.nil, parts, field_u8, field_flag, field_fourBits, field_u64, field_b256, field_u256, field_bytes, field_byteList, field_list, field_vector, field_header, field_eth1Data, field_checkpoint, field_forkData, field_validator, field_syncCommittee, field_execBellatrix, enc_flag, enc_fourBits, enc_u64, enc_b256, enc_u256, enc_bytes, enc_byteList, enc_list, enc_vector, row_keys, row_bytes, row_ids, row_u64, lay_header, lay_eth1Data, lay_checkpoint, lay_forkData, lay_validator, lay_syncCommittee, lay_execBellatrix]
  rfl

theorem field_execDeneb : execDeneb.codec.field = .var := rfl
theorem lay_execDeneb : execDeneb.codec.enc = execDenebBytes := by
  funext x
  rw [execDeneb, struct_layout (good_cons good_b256 <|
    good_cons (good_bytes 20) <|
    good_cons good_b256 <|
    good_cons good_b256 <|
    good_cons (good_bytes 256) <|
    good_cons good_b256 <|
    good_cons good_u64 <|
    good_cons good_u64 <|
    good_cons good_u64 <|
    good_cons good_u64 <|
    good_cons (good_byteList (by decide)) <|
    good_cons good_u256 <|
    good_cons good_b256 <|
    good_cons good_b256 <|
    good_cons good_b256 <|
    good_cons good_u64 <|
    good_cons good_u64 good_nil)]
  simp only [Fields.cons, Fields.nil, Rec.cons, Rec.nil, parts, field_u8, field_flag, field_fourBits, field_u64, field_b256, field_u256, field_bytes, field_byteList, field_list, field_vector, field_header, field_eth1Data, field_checkpoint, field_forkData, field_validator, field_syncCommittee, field_execBellatrix, field_execCapella, enc_flag, enc_fourBits, enc_u64, enc_b256, enc_u256, enc_bytes, enc_byteList, enc_list, enc_vector, row_keys, row_bytes, row_ids, row_u64, lay_header, lay_eth1Data, lay_checkpoint, lay_forkData, lay_validator, lay_syncCommittee, lay_execBellatrix, lay_execCapella]
  rfl

theorem field_summary : summary.codec.field = .fixed 64 := rfl
theorem lay_summary : summary.codec.enc = summaryBytes := by
  funext x
  rw [summary, struct_layout (good_cons good_b256 <|
    good_cons good_b256 good_nil)]
  simp only [Fields.cons, Fields.nil, Rec.cons, Rec.nil, parts, field_u8, field_flag, field_fourBits, field_u64, field_b256, field_u256, field_bytes, field_byteList, field_list, field_vector, field_header, field_eth1Data, field_checkpoint, field_forkData, field_validator, field_syncCommittee, field_execBellatrix, field_execCapella, field_execDeneb, enc_flag, enc_fourBits, enc_u64, enc_b256, enc_u256, enc_bytes, enc_byteList, enc_list, enc_vector, row_keys, row_bytes, row_ids, row_u64, lay_header, lay_eth1Data, lay_checkpoint, lay_forkData, lay_validator, lay_syncCommittee, lay_execBellatrix, lay_execCapella, lay_execDeneb]
  simp [layout, places, rest, summaryBytes]

theorem field_pendingDeposit : pendingDeposit.codec.field = .fixed 192 := rfl
theorem lay_pendingDeposit : pendingDeposit.codec.enc = pendingDepositBytes := by
  funext x
  rw [pendingDeposit, struct_layout (good_cons (good_bytes 48) <|
    good_cons good_b256 <|
    good_cons good_u64 <|
    good_cons (good_bytes 96) <|
    good_cons good_u64 good_nil)]
  simp only [Fields.cons, Fields.nil, Rec.cons, Rec.nil, parts, field_u8, field_flag, field_fourBits, field_u64, field_b256, field_u256, field_bytes, field_byteList, field_list, field_vector, field_header, field_eth1Data, field_checkpoint, field_forkData, field_validator, field_syncCommittee, field_execBellatrix, field_execCapella, field_execDeneb, field_summary, enc_flag, enc_fourBits, enc_u64, enc_b256, enc_u256, enc_bytes, enc_byteList, enc_list, enc_vector, row_keys, row_bytes, row_ids, row_u64, lay_header, lay_eth1Data, lay_checkpoint, lay_forkData, lay_validator, lay_syncCommittee, lay_execBellatrix, lay_execCapella, lay_execDeneb, lay_summary]
  simp [layout, places, rest, pendingDepositBytes]

theorem field_pendingWithdrawal : pendingWithdrawal.codec.field = .fixed 24 := rfl
theorem lay_pendingWithdrawal : pendingWithdrawal.codec.enc = pendingWithdrawalBytes := by
  funext x
  rw [pendingWithdrawal, struct_layout (good_cons good_u64 <|
    good_cons good_u64 <|
    good_cons good_u64 good_nil)]
  simp only [Fields.cons, Fields.nil, Rec.cons, Rec.nil, parts, field_u8, field_flag, field_fourBits, field_u64, field_b256, field_u256, field_bytes, field_byteList, field_list, field_vector, field_header, field_eth1Data, field_checkpoint, field_forkData, field_validator, field_syncCommittee, field_execBellatrix, field_execCapella, field_execDeneb, field_summary, field_pendingDeposit, enc_flag, enc_fourBits, enc_u64, enc_b256, enc_u256, enc_bytes, enc_byteList, enc_list, enc_vector, row_keys, row_bytes, row_ids, row_u64, lay_header, lay_eth1Data, lay_checkpoint, lay_forkData, lay_validator, lay_syncCommittee, lay_execBellatrix, lay_execCapella, lay_execDeneb, lay_summary, lay_pendingDeposit]
  simp [layout, places, rest, pendingWithdrawalBytes]

theorem field_pendingConsolidation : pendingConsolidation.codec.field = .fixed 16 := rfl
theorem lay_pendingConsolidation : pendingConsolidation.codec.enc = pendingConsolidationBytes := by
  funext x
  rw [pendingConsolidation, struct_layout (good_cons good_u64 <|
    good_cons good_u64 good_nil)]
  simp only [Fields.cons, Fields.nil, Rec.cons, Rec.nil, parts, field_u8, field_flag, field_fourBits, field_u64, field_b256, field_u256, field_bytes, field_byteList, field_list, field_vector, field_header, field_eth1Data, field_checkpoint, field_forkData, field_validator, field_syncCommittee, field_execBellatrix, field_execCapella, field_execDeneb, field_summary, field_pendingDeposit, field_pendingWithdrawal, enc_flag, enc_fourBits, enc_u64, enc_b256, enc_u256, enc_bytes, enc_byteList, enc_list, enc_vector, row_keys, row_bytes, row_ids, row_u64, lay_header, lay_eth1Data, lay_checkpoint, lay_forkData, lay_validator, lay_syncCommittee, lay_execBellatrix, lay_execCapella, lay_execDeneb, lay_summary, lay_pendingDeposit, lay_pendingWithdrawal]
  simp [layout, places, rest, pendingConsolidationBytes]

theorem parts_tailBellatrix (t : TailBellatrix) : parts tailBellatrix.ssz.fields (tailBellatrix.ssz.enc t) = tailParts .bellatrix t := by
  rw [tailBellatrix]
  simp only [fieldsAs, Fields.cons, Fields.nil, Rec.cons, Rec.nil, parts, field_u8, field_flag, field_fourBits, field_u64, field_b256, field_u256, field_bytes, field_byteList, field_list, field_vector, field_header, field_eth1Data, field_checkpoint, field_forkData, field_validator, field_syncCommittee, field_execBellatrix, field_execCapella, field_execDeneb, field_summary, field_pendingDeposit, field_pendingWithdrawal, field_pendingConsolidation, enc_flag, enc_fourBits, enc_u64, enc_b256, enc_u256, enc_bytes, enc_byteList, enc_list, enc_vector, row_keys, row_bytes, row_ids, row_u64, lay_header, lay_eth1Data, lay_checkpoint, lay_forkData, lay_validator, lay_syncCommittee, lay_execBellatrix, lay_execCapella, lay_execDeneb, lay_summary, lay_pendingDeposit, lay_pendingWithdrawal, lay_pendingConsolidation]
  rfl

theorem parts_tailCapella (t : TailCapella) : parts tailCapella.ssz.fields (tailCapella.ssz.enc t) = tailParts .capella t := by
  rw [tailCapella]
  simp only [fieldsAs, Fields.cons, Fields.nil, Rec.cons, Rec.nil, parts, field_u8, field_flag, field_fourBits, field_u64, field_b256, field_u256, field_bytes, field_byteList, field_list, field_vector, field_header, field_eth1Data, field_checkpoint, field_forkData, field_validator, field_syncCommittee, field_execBellatrix, field_execCapella, field_execDeneb, field_summary, field_pendingDeposit, field_pendingWithdrawal, field_pendingConsolidation, enc_flag, enc_fourBits, enc_u64, enc_b256, enc_u256, enc_bytes, enc_byteList, enc_list, enc_vector, row_keys, row_bytes, row_ids, row_u64, lay_header, lay_eth1Data, lay_checkpoint, lay_forkData, lay_validator, lay_syncCommittee, lay_execBellatrix, lay_execCapella, lay_execDeneb, lay_summary, lay_pendingDeposit, lay_pendingWithdrawal, lay_pendingConsolidation]
  rfl

theorem parts_tailDeneb (t : TailDeneb) : parts tailDeneb.ssz.fields (tailDeneb.ssz.enc t) = tailParts .deneb t := by
  rw [tailDeneb]
  simp only [fieldsAs, Fields.cons, Fields.nil, Rec.cons, Rec.nil, parts, field_u8, field_flag, field_fourBits, field_u64, field_b256, field_u256, field_bytes, field_byteList, field_list, field_vector, field_header, field_eth1Data, field_checkpoint, field_forkData, field_validator, field_syncCommittee, field_execBellatrix, field_execCapella, field_execDeneb, field_summary, field_pendingDeposit, field_pendingWithdrawal, field_pendingConsolidation, enc_flag, enc_fourBits, enc_u64, enc_b256, enc_u256, enc_bytes, enc_byteList, enc_list, enc_vector, row_keys, row_bytes, row_ids, row_u64, lay_header, lay_eth1Data, lay_checkpoint, lay_forkData, lay_validator, lay_syncCommittee, lay_execBellatrix, lay_execCapella, lay_execDeneb, lay_summary, lay_pendingDeposit, lay_pendingWithdrawal, lay_pendingConsolidation]
  rfl

theorem parts_tailElectra (t : TailElectra) : parts tailElectra.ssz.fields (tailElectra.ssz.enc t) = tailParts .electra t := by
  rw [tailElectra]
  simp only [fieldsAs, Fields.cons, Fields.nil, Rec.cons, Rec.nil, parts, field_u8, field_flag, field_fourBits, field_u64, field_b256, field_u256, field_bytes, field_byteList, field_list, field_vector, field_header, field_eth1Data, field_checkpoint, field_forkData, field_validator, field_syncCommittee, field_execBellatrix, field_execCapella, field_execDeneb, field_summary, field_pendingDeposit, field_pendingWithdrawal, field_pendingConsolidation, enc_flag, enc_fourBits, enc_u64, enc_b256, enc_u256, enc_bytes, enc_byteList, enc_list, enc_vector, row_keys, row_bytes, row_ids, row_u64, lay_header, lay_eth1Data, lay_checkpoint, lay_forkData, lay_validator, lay_syncCommittee, lay_execBellatrix, lay_execCapella, lay_execDeneb, lay_summary, lay_pendingDeposit, lay_pendingWithdrawal, lay_pendingConsolidation]
  rfl

theorem parts_tail : (f : Fork) → (t : Tail f) → parts (tail f).ssz.fields ((tail f).ssz.enc t) = tailParts f t
  | .bellatrix, t => parts_tailBellatrix t
  | .capella, t => parts_tailCapella t
  | .deneb, t => parts_tailDeneb t
  | .electra, t => parts_tailElectra t

theorem lay_state (f : Fork) (s : State f) : (state f).codec.enc s = stateBytes s := by
  rw [state, struct_layout (good_cons good_u64 <|
    good_cons good_b256 <|
    good_cons good_u64 <|
    good_cons good_forkData <|
    good_cons good_header <|
    good_cons (good_vector good_b256 rfl 8192) <|
    good_cons (good_vector good_b256 rfl 8192) <|
    good_cons (good_list good_b256 (by decide) rfl (by decide)) <|
    good_cons good_eth1Data <|
    good_cons (good_list good_eth1Data (by decide) rfl (by decide)) <|
    good_cons good_u64 <|
    good_cons (good_list good_validator (by decide) rfl (by decide)) <|
    good_cons (good_list good_u64 (by decide) rfl (by decide)) <|
    good_cons (good_vector good_b256 rfl 65536) <|
    good_cons (good_vector good_u64 rfl 8192) <|
    good_cons (good_list good_u8 (by decide) rfl (by decide)) <|
    good_cons (good_list good_u8 (by decide) rfl (by decide)) <|
    good_cons good_fourBits <|
    good_cons good_checkpoint <|
    good_cons good_checkpoint <|
    good_cons good_checkpoint <|
    good_cons (good_list good_u64 (by decide) rfl (by decide)) <|
    good_cons good_syncCommittee <|
    good_cons good_syncCommittee <|
    good_tail f)]
  simp only [Fields.cons, Rec.cons, parts, parts_tail, field_u8, field_flag, field_fourBits, field_u64, field_b256, field_u256, field_bytes, field_byteList, field_list, field_vector, field_header, field_eth1Data, field_checkpoint, field_forkData, field_validator, field_syncCommittee, field_execBellatrix, field_execCapella, field_execDeneb, field_summary, field_pendingDeposit, field_pendingWithdrawal, field_pendingConsolidation, enc_flag, enc_fourBits, enc_u64, enc_b256, enc_u256, enc_bytes, enc_byteList, enc_list, enc_vector, row_keys, row_bytes, row_ids, row_u64, lay_header, lay_eth1Data, lay_checkpoint, lay_forkData, lay_validator, lay_syncCommittee, lay_execBellatrix, lay_execCapella, lay_execDeneb, lay_summary, lay_pendingDeposit, lay_pendingWithdrawal, lay_pendingConsolidation]
  rfl

end Verif.BeaconState
