import Verif.Lemmas.BeaconBlock
import Verif.Props.BeaconBlockSpec

/-! The bytes of beacon blocks are laid out as the specification says. -/

namespace Verif.BeaconBlock
open Verif.Ssz Verif.TreeHash Verif.Props.BeaconBlockSpec
open Verif.SszT hiding u256 byteList list varList vector
open Verif.LightClient (Header)
open Verif.HeaderValidator (Fork)

set_option linter.unusedSimpArgs false

/-- The values of fields as parts. -/
def parts : List Field → List Bytes → List Part
  | .fixed _ :: fs, v :: vs => .inPlace v :: parts fs vs
  | .var :: fs, v :: vs => .behind v :: parts fs vs
  | _, _ => []

theorem fixedPart_parts : ∀ (fs : List Field) (vs : List Bytes) (off : Nat), fixedPart fs vs off = places off (parts fs vs)
  | [], _, _ => by simp [fixedPart, parts, places]
  | .fixed _ :: fs, v :: vs, off => by simp [fixedPart, parts, places, fixedPart_parts fs vs]
  | .var :: fs, v :: vs, off => by simp [fixedPart, parts, places, fixedPart_parts fs vs]
  | .fixed _ :: _, [], _ => by simp [fixedPart, parts, places]
  | .var :: _, [], _ => by simp [fixedPart, parts, places]

theorem varPart_parts : ∀ (fs : List Field) (vs : List Bytes), varPart fs vs = rest (parts fs vs)
  | [], _ => by simp [varPart, parts, rest]
  | .fixed _ :: fs, v :: vs => by simp [varPart, parts, rest, varPart_parts fs vs]
  | .var :: fs, v :: vs => by simp [varPart, parts, rest, varPart_parts fs vs]
  | .fixed _ :: _, [] => by simp [varPart, parts, rest]
  | .var :: _, [] => by simp [varPart, parts, rest]

theorem headLen_parts : ∀ {fs : List Field} {vs : List Bytes}, Fits fs vs → headLen fs = ((parts fs vs).map Part.size).sum
  | [], [], _ => rfl
  | .fixed _ :: fs, v :: vs, h => by
    simp only [headLen, Field.headLen, parts, List.map_cons, List.sum_cons, Part.size, headLen_parts h.2, h.1]
  | .var :: fs, v :: vs, h => by
    have h' : Fits fs vs := h
    simp only [headLen, Field.headLen, parts, List.map_cons, List.sum_cons, Part.size, headLen_parts h']
  | [], _ :: _, h => by cases h
  | .fixed _ :: _, [], h => by cases h
  | .var :: _, [], h => by cases h

theorem encodeContainer_layout {fs : List Field} {vs : List Bytes} (h : Fits fs vs) :
    encodeContainer fs vs = layout (parts fs vs) := by
  rw [encodeContainer, layout, fixedPart_parts, varPart_parts, headLen_parts h]

theorem struct_layout {α β} {r : Fields α} (hr : FieldsGood r) (f : α → β) (g : β → α) (x : β) :
    (struct r f g).codec.enc x = layout (parts r.ssz.fields (r.ssz.enc (g x))) :=
  encodeContainer_layout (hr.sound.fits (g x))

theorem encodeVarList_layout (vs : List Bytes) : encodeVarList vs = layout (vs.map .behind) := by
  have : parts (vs.map fun _ => Field.var) vs = vs.map .behind := by
    induction vs with
    | nil => rfl
    | cons v vs ih => simp [parts, ih]
  rw [encodeVarList, encodeContainer_layout (fits_var_map vs), this]

theorem field_u64 : u64.codec.field = .fixed 8 := rfl
theorem field_b256 : b256.codec.field = .fixed 32 := rfl
theorem field_u256 : u256.codec.field = .fixed 32 := rfl
theorem field_bytes (n : Nat) : (bytes n).codec.field = .fixed n := rfl
theorem field_byteList (n : Nat) : (byteList n).codec.field = .var := rfl
theorem field_bitlist (n : Nat) : (bitlist n).codec.field = .var := rfl
theorem field_list {α} (t : Ty α) (n : Nat) : (list t n).codec.field = .var := rfl
theorem field_varList {α} (t : Ty α) (n : Nat) : (varList t n).codec.field = .var := rfl
theorem field_vector {α} (t : Ty α) (n : Nat) : (vector t n).codec.field = .fixed (t.codec.field.headLen * n) := rfl
theorem field_transactions : transactions.codec.field = .var := rfl

theorem enc_u64 (x : UInt64) : u64.codec.enc x = le8 x := rfl
theorem enc_b256 (x : Id) : b256.codec.enc x = x.bytes := rfl
theorem enc_u256 (x : BitVec 256) : u256.codec.enc x = toLe 32 x.toNat := rfl
theorem enc_bytes (n : Nat) (x : BytesN n) : (bytes n).codec.enc x = x.1 := rfl
theorem enc_byteList (n : Nat) (x : BList UInt8 n) : (byteList n).codec.enc x = x.1 := rfl
theorem bitsToNat_delim' (l : List Bool) :
    bitsToNat (l ++ [true]) = l.foldr (fun b n => (if b then 1 else 0) + 2 * n) 1 := by
  induction l with
  | nil => rfl
  | cons b l ih => simp [bitsToNat, ih]
theorem enc_bitlist (n : Nat) (x : BList Bool n) : (bitlist n).codec.enc x = bitBytes x.1 := by
  show bitlistEncode x.1 = _
  rw [bitlistEncode, bitsToNat_delim']; rfl
theorem enc_list {α} (t : Ty α) (n : Nat) (x : BList α n) : (list t n).codec.enc x = row t.codec.enc x.1 := rfl
theorem enc_varList {α} (t : Ty α) (n : Nat) (x : BList α n) : (varList t n).codec.enc x = table t.codec.enc x.1 := by
  show encodeVarList (x.1.map t.codec.enc) = _
  rw [encodeVarList_layout, List.map_map]; rfl
theorem enc_vector {α} (t : Ty α) (n : Nat) (x : Vec α n) : (vector t n).codec.enc x = row t.codec.enc x.1 := rfl
theorem enc_transactions (x : Transactions) : transactions.codec.enc x = table (fun t => t.1) x.1 := enc_varList _ _ x

theorem field_header : header.codec.field = .fixed 112 := rfl
theorem field_syncAggregate : syncAggregate.codec.field = .fixed 160 := rfl
theorem field_eth1Data : eth1Data.codec.field = .fixed 72 := rfl
theorem field_signedHeader : signedHeader.codec.field = .fixed 208 := rfl
theorem field_proposerSlashing : proposerSlashing.codec.field = .fixed 416 := rfl
theorem field_checkpoint : checkpoint.codec.field = .fixed 40 := rfl
theorem field_attestationData : attestationData.codec.field = .fixed 128 := rfl
theorem field_indexedAttestation (max : Nat) : (indexedAttestation max).codec.field = .var := rfl
theorem field_attesterSlashing (max : Nat) : (attesterSlashing max).codec.field = .var := rfl
theorem field_attestationBase : attestationBase.codec.field = .var := rfl
theorem field_attestationElectra : attestationElectra.codec.field = .var := rfl
theorem field_depositData : depositData.codec.field = .fixed 184 := rfl
theorem field_deposit : deposit.codec.field = .fixed 1240 := rfl
theorem field_voluntaryExit : voluntaryExit.codec.field = .fixed 16 := rfl
theorem field_signedVoluntaryExit : signedVoluntaryExit.codec.field = .fixed 112 := rfl
theorem field_blsChange : blsChange.codec.field = .fixed 76 := rfl
theorem field_signedBlsChange : signedBlsChange.codec.field = .fixed 172 := rfl
theorem field_withdrawal : withdrawal.codec.field = .fixed 44 := rfl
theorem field_depositRequest : depositRequest.codec.field = .fixed 192 := rfl
theorem field_withdrawalRequest : withdrawalRequest.codec.field = .fixed 76 := rfl
theorem field_consolidationRequest : consolidationRequest.codec.field = .fixed 116 := rfl
theorem field_executionRequests : executionRequests.codec.field = .var := rfl
theorem field_payloadBellatrix : payloadBellatrix.codec.field = .var := rfl
theorem field_payloadCapella : payloadCapella.codec.field = .var := rfl
theorem field_payloadDeneb : payloadDeneb.codec.field = .var := rfl
theorem field_bodyBellatrix : bodyBellatrix.codec.field = .var := rfl
theorem field_bodyCapella : bodyCapella.codec.field = .var := rfl
theorem field_bodyDeneb : bodyDeneb.codec.field = .var := rfl
theorem field_bodyElectra : bodyElectra.codec.field = .var := rfl

theorem lay_header : header.codec.enc = headerBytes := by
  funext x
  rw [header, struct_layout (good_cons good_u64 <| good_cons good_u64 <| good_cons good_b256 <| good_cons good_b256 <| good_cons good_b256 good_nil)]
  simp only [Fields.cons, Fields.nil, Rec.cons, Rec.nil, parts, field_u64, field_b256, field_u256, field_bytes, field_byteList, field_bitlist, field_list, field_varList, field_vector, field_transactions, field_header, field_syncAggregate, field_eth1Data, field_signedHeader, field_proposerSlashing, field_checkpoint, field_attestationData, field_indexedAttestation, field_attesterSlashing, field_attestationBase, field_attestationElectra, field_depositData, field_deposit, field_voluntaryExit, field_signedVoluntaryExit, field_blsChange, field_signedBlsChange, field_withdrawal, field_depositRequest, field_withdrawalRequest, field_consolidationRequest, field_executionRequests, field_payloadBellatrix, field_payloadCapella, field_payloadDeneb, field_bodyBellatrix, field_bodyCapella, field_bodyDeneb, field_bodyElectra, enc_u64, enc_b256, enc_u256, enc_bytes, enc_byteList, enc_bitlist, enc_list, enc_varList, enc_vector, enc_transactions]
  simp [layout, places, rest, headerBytes, row, le8]

theorem lay_syncAggregate : syncAggregate.codec.enc = syncAggregateBytes := by
  funext x
  rw [syncAggregate, struct_layout (good_cons (good_bytes 64) <| good_cons (good_bytes 96) good_nil)]
  simp only [Fields.cons, Fields.nil, Rec.cons, Rec.nil, parts, field_u64, field_b256, field_u256, field_bytes, field_byteList, field_bitlist, field_list, field_varList, field_vector, field_transactions, field_header, field_syncAggregate, field_eth1Data, field_signedHeader, field_proposerSlashing, field_checkpoint, field_attestationData, field_indexedAttestation, field_attesterSlashing, field_attestationBase, field_attestationElectra, field_depositData, field_deposit, field_voluntaryExit, field_signedVoluntaryExit, field_blsChange, field_signedBlsChange, field_withdrawal, field_depositRequest, field_withdrawalRequest, field_consolidationRequest, field_executionRequests, field_payloadBellatrix, field_payloadCapella, field_payloadDeneb, field_bodyBellatrix, field_bodyCapella, field_bodyDeneb, field_bodyElectra, enc_u64, enc_b256, enc_u256, enc_bytes, enc_byteList, enc_bitlist, enc_list, enc_varList, enc_vector, enc_transactions]
  simp [layout, places, rest, syncAggregateBytes, row, le8]

theorem lay_eth1Data : eth1Data.codec.enc = eth1DataBytes := by
  funext x
  rw [eth1Data, struct_layout (good_cons good_b256 <| good_cons good_u64 <| good_cons good_b256 good_nil)]
  simp only [Fields.cons, Fields.nil, Rec.cons, Rec.nil, parts, field_u64, field_b256, field_u256, field_bytes, field_byteList, field_bitlist, field_list, field_varList, field_vector, field_transactions, field_header, field_syncAggregate, field_eth1Data, field_signedHeader, field_proposerSlashing, field_checkpoint, field_attestationData, field_indexedAttestation, field_attesterSlashing, field_attestationBase, field_attestationElectra, field_depositData, field_deposit, field_voluntaryExit, field_signedVoluntaryExit, field_blsChange, field_signedBlsChange, field_withdrawal, field_depositRequest, field_withdrawalRequest, field_consolidationRequest, field_executionRequests, field_payloadBellatrix, field_payloadCapella, field_payloadDeneb, field_bodyBellatrix, field_bodyCapella, field_bodyDeneb, field_bodyElectra, enc_u64, enc_b256, enc_u256, enc_bytes, enc_byteList, enc_bitlist, enc_list, enc_varList, enc_vector, enc_transactions]
  simp [layout, places, rest, eth1DataBytes, row, le8]

theorem lay_signedHeader : signedHeader.codec.enc = signedHeaderBytes := by
  funext x
  rw [signedHeader, struct_layout (good_cons good_header <| good_cons (good_bytes 96) good_nil)]
  simp only [Fields.cons, Fields.nil, Rec.cons, Rec.nil, parts, field_u64, field_b256, field_u256, field_bytes, field_byteList, field_bitlist, field_list, field_varList, field_vector, field_transactions, field_header, field_syncAggregate, field_eth1Data, field_signedHeader, field_proposerSlashing, field_checkpoint, field_attestationData, field_indexedAttestation, field_attesterSlashing, field_attestationBase, field_attestationElectra, field_depositData, field_deposit, field_voluntaryExit, field_signedVoluntaryExit, field_blsChange, field_signedBlsChange, field_withdrawal, field_depositRequest, field_withdrawalRequest, field_consolidationRequest, field_executionRequests, field_payloadBellatrix, field_payloadCapella, field_payloadDeneb, field_bodyBellatrix, field_bodyCapella, field_bodyDeneb, field_bodyElectra, enc_u64, enc_b256, enc_u256, enc_bytes, enc_byteList, enc_bitlist, enc_list, enc_varList, enc_vector, enc_transactions, lay_header]
  simp [layout, places, rest, signedHeaderBytes, row, le8]

theorem lay_proposerSlashing : proposerSlashing.codec.enc = proposerSlashingBytes := by
  funext x
  rw [proposerSlashing, struct_layout (good_cons good_signedHeader <| good_cons good_signedHeader good_nil)]
  simp only [Fields.cons, Fields.nil, Rec.cons, Rec.nil, parts, field_u64, field_b256, field_u256, field_bytes, field_byteList, field_bitlist, field_list, field_varList, field_vector, field_transactions, field_header, field_syncAggregate, field_eth1Data, field_signedHeader, field_proposerSlashing, field_checkpoint, field_attestationData, field_indexedAttestation, field_attesterSlashing, field_attestationBase, field_attestationElectra, field_depositData, field_deposit, field_voluntaryExit, field_signedVoluntaryExit, field_blsChange, field_signedBlsChange, field_withdrawal, field_depositRequest, field_withdrawalRequest, field_consolidationRequest, field_executionRequests, field_payloadBellatrix, field_payloadCapella, field_payloadDeneb, field_bodyBellatrix, field_bodyCapella, field_bodyDeneb, field_bodyElectra, enc_u64, enc_b256, enc_u256, enc_bytes, enc_byteList, enc_bitlist, enc_list, enc_varList, enc_vector, enc_transactions, lay_signedHeader]
  simp [layout, places, rest, proposerSlashingBytes, row, le8]

theorem lay_checkpoint : checkpoint.codec.enc = checkpointBytes := by
  funext x
  rw [checkpoint, struct_layout (good_cons good_u64 <| good_cons good_b256 good_nil)]
  simp only [Fields.cons, Fields.nil, Rec.cons, Rec.nil, parts, field_u64, field_b256, field_u256, field_bytes, field_byteList, field_bitlist, field_list, field_varList, field_vector, field_transactions, field_header, field_syncAggregate, field_eth1Data, field_signedHeader, field_proposerSlashing, field_checkpoint, field_attestationData, field_indexedAttestation, field_attesterSlashing, field_attestationBase, field_attestationElectra, field_depositData, field_deposit, field_voluntaryExit, field_signedVoluntaryExit, field_blsChange, field_signedBlsChange, field_withdrawal, field_depositRequest, field_withdrawalRequest, field_consolidationRequest, field_executionRequests, field_payloadBellatrix, field_payloadCapella, field_payloadDeneb, field_bodyBellatrix, field_bodyCapella, field_bodyDeneb, field_bodyElectra, enc_u64, enc_b256, enc_u256, enc_bytes, enc_byteList, enc_bitlist, enc_list, enc_varList, enc_vector, enc_transactions]
  simp [layout, places, rest, checkpointBytes, row, le8]

theorem lay_attestationData : attestationData.codec.enc = attestationDataBytes := by
  funext x
  rw [attestationData, struct_layout (good_cons good_u64 <| good_cons good_u64 <| good_cons good_b256 <| good_cons good_checkpoint <| good_cons good_checkpoint good_nil)]
  simp only [Fields.cons, Fields.nil, Rec.cons, Rec.nil, parts, field_u64, field_b256, field_u256, field_bytes, field_byteList, field_bitlist, field_list, field_varList, field_vector, field_transactions, field_header, field_syncAggregate, field_eth1Data, field_signedHeader, field_proposerSlashing, field_checkpoint, field_attestationData, field_indexedAttestation, field_attesterSlashing, field_attestationBase, field_attestationElectra, field_depositData, field_deposit, field_voluntaryExit, field_signedVoluntaryExit, field_blsChange, field_signedBlsChange, field_withdrawal, field_depositRequest, field_withdrawalRequest, field_consolidationRequest, field_executionRequests, field_payloadBellatrix, field_payloadCapella, field_payloadDeneb, field_bodyBellatrix, field_bodyCapella, field_bodyDeneb, field_bodyElectra, enc_u64, enc_b256, enc_u256, enc_bytes, enc_byteList, enc_bitlist, enc_list, enc_varList, enc_vector, enc_transactions, lay_checkpoint]
  simp [layout, places, rest, attestationDataBytes, row, le8]

theorem lay_indexedAttestation {max : Nat} (hm : max < 2 ^ 256) : (indexedAttestation max).codec.enc = indexedAttestationBytes := by
  funext x
  rw [indexedAttestation, struct_layout (good_cons (good_list good_u64 (by decide) rfl hm) <| good_cons good_attestationData <| good_cons (good_bytes 96) good_nil)]
  simp only [Fields.cons, Fields.nil, Rec.cons, Rec.nil, parts, field_u64, field_b256, field_u256, field_bytes, field_byteList, field_bitlist, field_list, field_varList, field_vector, field_transactions, field_header, field_syncAggregate, field_eth1Data, field_signedHeader, field_proposerSlashing, field_checkpoint, field_attestationData, field_indexedAttestation, field_attesterSlashing, field_attestationBase, field_attestationElectra, field_depositData, field_deposit, field_voluntaryExit, field_signedVoluntaryExit, field_blsChange, field_signedBlsChange, field_withdrawal, field_depositRequest, field_withdrawalRequest, field_consolidationRequest, field_executionRequests, field_payloadBellatrix, field_payloadCapella, field_payloadDeneb, field_bodyBellatrix, field_bodyCapella, field_bodyDeneb, field_bodyElectra, enc_u64, enc_b256, enc_u256, enc_bytes, enc_byteList, enc_bitlist, enc_list, enc_varList, enc_vector, enc_transactions, lay_attestationData]
  rfl

theorem lay_attesterSlashing {max : Nat} (hm : max < 2 ^ 256) : (attesterSlashing max).codec.enc = attesterSlashingBytes := by
  funext x
  rw [attesterSlashing, struct_layout (good_cons (good_indexedAttestation hm) <| good_cons (good_indexedAttestation hm) good_nil)]
  simp only [Fields.cons, Fields.nil, Rec.cons, Rec.nil, parts, field_u64, field_b256, field_u256, field_bytes, field_byteList, field_bitlist, field_list, field_varList, field_vector, field_transactions, field_header, field_syncAggregate, field_eth1Data, field_signedHeader, field_proposerSlashing, field_checkpoint, field_attestationData, field_indexedAttestation, field_attesterSlashing, field_attestationBase, field_attestationElectra, field_depositData, field_deposit, field_voluntaryExit, field_signedVoluntaryExit, field_blsChange, field_signedBlsChange, field_withdrawal, field_depositRequest, field_withdrawalRequest, field_consolidationRequest, field_executionRequests, field_payloadBellatrix, field_payloadCapella, field_payloadDeneb, field_bodyBellatrix, field_bodyCapella, field_bodyDeneb, field_bodyElectra, enc_u64, enc_b256, enc_u256, enc_bytes, enc_byteList, enc_bitlist, enc_list, enc_varList, enc_vector, enc_transactions, lay_indexedAttestation hm]
  rfl

theorem lay_attestationBase : attestationBase.codec.enc = attestationBaseBytes := by
  funext x
  rw [attestationBase, struct_layout (good_cons (good_bitlist (by decide)) <| good_cons good_attestationData <| good_cons (good_bytes 96) good_nil)]
  simp only [Fields.cons, Fields.nil, Rec.cons, Rec.nil, parts, field_u64, field_b256, field_u256, field_bytes, field_byteList, field_bitlist, field_list, field_varList, field_vector, field_transactions, field_header, field_syncAggregate, field_eth1Data, field_signedHeader, field_proposerSlashing, field_checkpoint, field_attestationData, field_indexedAttestation, field_attesterSlashing, field_attestationBase, field_attestationElectra, field_depositData, field_deposit, field_voluntaryExit, field_signedVoluntaryExit, field_blsChange, field_signedBlsChange, field_withdrawal, field_depositRequest, field_withdrawalRequest, field_consolidationRequest, field_executionRequests, field_payloadBellatrix, field_payloadCapella, field_payloadDeneb, field_bodyBellatrix, field_bodyCapella, field_bodyDeneb, field_bodyElectra, enc_u64, enc_b256, enc_u256, enc_bytes, enc_byteList, enc_bitlist, enc_list, enc_varList, enc_vector, enc_transactions, lay_attestationData]
  rfl

theorem lay_attestationElectra : attestationElectra.codec.enc = attestationElectraBytes := by
  funext x
  rw [attestationElectra, struct_layout (good_cons (good_bitlist (by decide)) <| good_cons good_attestationData <| good_cons (good_bytes 96) <| good_cons (good_bytes 8) good_nil)]
  simp only [Fields.cons, Fields.nil, Rec.cons, Rec.nil, parts, field_u64, field_b256, field_u256, field_bytes, field_byteList, field_bitlist, field_list, field_varList, field_vector, field_transactions, field_header, field_syncAggregate, field_eth1Data, field_signedHeader, field_proposerSlashing, field_checkpoint, field_attestationData, field_indexedAttestation, field_attesterSlashing, field_attestationBase, field_attestationElectra, field_depositData, field_deposit, field_voluntaryExit, field_signedVoluntaryExit, field_blsChange, field_signedBlsChange, field_withdrawal, field_depositRequest, field_withdrawalRequest, field_consolidationRequest, field_executionRequests, field_payloadBellatrix, field_payloadCapella, field_payloadDeneb, field_bodyBellatrix, field_bodyCapella, field_bodyDeneb, field_bodyElectra, enc_u64, enc_b256, enc_u256, enc_bytes, enc_byteList, enc_bitlist, enc_list, enc_varList, enc_vector, enc_transactions, lay_attestationData]
  rfl

theorem lay_depositData : depositData.codec.enc = depositDataBytes := by
  funext x
  rw [depositData, struct_layout (good_cons (good_bytes 48) <| good_cons good_b256 <| good_cons good_u64 <| good_cons (good_bytes 96) good_nil)]
  simp only [Fields.cons, Fields.nil, Rec.cons, Rec.nil, parts, field_u64, field_b256, field_u256, field_bytes, field_byteList, field_bitlist, field_list, field_varList, field_vector, field_transactions, field_header, field_syncAggregate, field_eth1Data, field_signedHeader, field_proposerSlashing, field_checkpoint, field_attestationData, field_indexedAttestation, field_attesterSlashing, field_attestationBase, field_attestationElectra, field_depositData, field_deposit, field_voluntaryExit, field_signedVoluntaryExit, field_blsChange, field_signedBlsChange, field_withdrawal, field_depositRequest, field_withdrawalRequest, field_consolidationRequest, field_executionRequests, field_payloadBellatrix, field_payloadCapella, field_payloadDeneb, field_bodyBellatrix, field_bodyCapella, field_bodyDeneb, field_bodyElectra, enc_u64, enc_b256, enc_u256, enc_bytes, enc_byteList, enc_bitlist, enc_list, enc_varList, enc_vector, enc_transactions]
  simp [layout, places, rest, depositDataBytes, row, le8]

theorem lay_deposit : deposit.codec.enc = depositBytes := by
  funext x
  rw [deposit, struct_layout (good_cons (good_vector good_b256 rfl 33) <| good_cons good_depositData good_nil)]
  simp only [Fields.cons, Fields.nil, Rec.cons, Rec.nil, parts, field_u64, field_b256, field_u256, field_bytes, field_byteList, field_bitlist, field_list, field_varList, field_vector, field_transactions, field_header, field_syncAggregate, field_eth1Data, field_signedHeader, field_proposerSlashing, field_checkpoint, field_attestationData, field_indexedAttestation, field_attesterSlashing, field_attestationBase, field_attestationElectra, field_depositData, field_deposit, field_voluntaryExit, field_signedVoluntaryExit, field_blsChange, field_signedBlsChange, field_withdrawal, field_depositRequest, field_withdrawalRequest, field_consolidationRequest, field_executionRequests, field_payloadBellatrix, field_payloadCapella, field_payloadDeneb, field_bodyBellatrix, field_bodyCapella, field_bodyDeneb, field_bodyElectra, enc_u64, enc_b256, enc_u256, enc_bytes, enc_byteList, enc_bitlist, enc_list, enc_varList, enc_vector, enc_transactions, lay_depositData]
  simp [layout, places, rest, depositBytes, row, le8]
  rfl

theorem lay_voluntaryExit : voluntaryExit.codec.enc = voluntaryExitBytes := by
  funext x
  rw [voluntaryExit, struct_layout (good_cons good_u64 <| good_cons good_u64 good_nil)]
  simp only [Fields.cons, Fields.nil, Rec.cons, Rec.nil, parts, field_u64, field_b256, field_u256, field_bytes, field_byteList, field_bitlist, field_list, field_varList, field_vector, field_transactions, field_header, field_syncAggregate, field_eth1Data, field_signedHeader, field_proposerSlashing, field_checkpoint, field_attestationData, field_indexedAttestation, field_attesterSlashing, field_attestationBase, field_attestationElectra, field_depositData, field_deposit, field_voluntaryExit, field_signedVoluntaryExit, field_blsChange, field_signedBlsChange, field_withdrawal, field_depositRequest, field_withdrawalRequest, field_consolidationRequest, field_executionRequests, field_payloadBellatrix, field_payloadCapella, field_payloadDeneb, field_bodyBellatrix, field_bodyCapella, field_bodyDeneb, field_bodyElectra, enc_u64, enc_b256, enc_u256, enc_bytes, enc_byteList, enc_bitlist, enc_list, enc_varList, enc_vector, enc_transactions]
  simp [layout, places, rest, voluntaryExitBytes, row, le8]

theorem lay_signedVoluntaryExit : signedVoluntaryExit.codec.enc = signedVoluntaryExitBytes := by
  funext x
  rw [signedVoluntaryExit, struct_layout (good_cons good_voluntaryExit <| good_cons (good_bytes 96) good_nil)]
  simp only [Fields.cons, Fields.nil, Rec.cons, Rec.nil, parts, field_u64, field_b256, field_u256, field_bytes, field_byteList, field_bitlist, field_list, field_varList, field_vector, field_transactions, field_header, field_syncAggregate, field_eth1Data, field_signedHeader, field_proposerSlashing, field_checkpoint, field_attestationData, field_indexedAttestation, field_attesterSlashing, field_attestationBase, field_attestationElectra, field_depositData, field_deposit, field_voluntaryExit, field_signedVoluntaryExit, field_blsChange, field_signedBlsChange, field_withdrawal, field_depositRequest, field_withdrawalRequest, field_consolidationRequest, field_executionRequests, field_payloadBellatrix, field_payloadCapella, field_payloadDeneb, field_bodyBellatrix, field_bodyCapella, field_bodyDeneb, field_bodyElectra, enc_u64, enc_b256, enc_u256, enc_bytes, enc_byteList, enc_bitlist, enc_list, enc_varList, enc_vector, enc_transactions, lay_voluntaryExit]
  simp [layout, places, rest, signedVoluntaryExitBytes, row, le8]

theorem lay_blsChange : blsChange.codec.enc = blsChangeBytes := by
  funext x
  rw [blsChange, struct_layout (good_cons good_u64 <| good_cons (good_bytes 48) <| good_cons (good_bytes 20) good_nil)]
  simp only [Fields.cons, Fields.nil, Rec.cons, Rec.nil, parts, field_u64, field_b256, field_u256, field_bytes, field_byteList, field_bitlist, field_list, field_varList, field_vector, field_transactions, field_header, field_syncAggregate, field_eth1Data, field_signedHeader, field_proposerSlashing, field_checkpoint, field_attestationData, field_indexedAttestation, field_attesterSlashing, field_attestationBase, field_attestationElectra, field_depositData, field_deposit, field_voluntaryExit, field_signedVoluntaryExit, field_blsChange, field_signedBlsChange, field_withdrawal, field_depositRequest, field_withdrawalRequest, field_consolidationRequest, field_executionRequests, field_payloadBellatrix, field_payloadCapella, field_payloadDeneb, field_bodyBellatrix, field_bodyCapella, field_bodyDeneb, field_bodyElectra, enc_u64, enc_b256, enc_u256, enc_bytes, enc_byteList, enc_bitlist, enc_list, enc_varList, enc_vector, enc_transactions]
  simp [layout, places, rest, blsChangeBytes, row, le8]

theorem lay_signedBlsChange : signedBlsChange.codec.enc = signedBlsChangeBytes := by
  funext x
  rw [signedBlsChange, struct_layout (good_cons good_blsChange <| good_cons (good_bytes 96) good_nil)]
  simp only [Fields.cons, Fields.nil, Rec.cons, Rec.nil, parts, field_u64, field_b256, field_u256, field_bytes, field_byteList, field_bitlist, field_list, field_varList, field_vector, field_transactions, field_header, field_syncAggregate, field_eth1Data, field_signedHeader, field_proposerSlashing, field_checkpoint, field_attestationData, field_indexedAttestation, field_attesterSlashing, field_attestationBase, field_attestationElectra, field_depositData, field_deposit, field_voluntaryExit, field_signedVoluntaryExit, field_blsChange, field_signedBlsChange, field_withdrawal, field_depositRequest, field_withdrawalRequest, field_consolidationRequest, field_executionRequests, field_payloadBellatrix, field_payloadCapella, field_payloadDeneb, field_bodyBellatrix, field_bodyCapella, field_bodyDeneb, field_bodyElectra, enc_u64, enc_b256, enc_u256, enc_bytes, enc_byteList, enc_bitlist, enc_list, enc_varList, enc_vector, enc_transactions, lay_blsChange]
  simp [layout, places, rest, signedBlsChangeBytes, row, le8]

theorem lay_withdrawal : withdrawal.codec.enc = withdrawalBytes := by
  funext x
  rw [withdrawal, struct_layout (good_cons good_u64 <| good_cons good_u64 <| good_cons (good_bytes 20) <| good_cons good_u64 good_nil)]
  simp only [Fields.cons, Fields.nil, Rec.cons, Rec.nil, parts, field_u64, field_b256, field_u256, field_bytes, field_byteList, field_bitlist, field_list, field_varList, field_vector, field_transactions, field_header, field_syncAggregate, field_eth1Data, field_signedHeader, field_proposerSlashing, field_checkpoint, field_attestationData, field_indexedAttestation, field_attesterSlashing, field_attestationBase, field_attestationElectra, field_depositData, field_deposit, field_voluntaryExit, field_signedVoluntaryExit, field_blsChange, field_signedBlsChange, field_withdrawal, field_depositRequest, field_withdrawalRequest, field_consolidationRequest, field_executionRequests, field_payloadBellatrix, field_payloadCapella, field_payloadDeneb, field_bodyBellatrix, field_bodyCapella, field_bodyDeneb, field_bodyElectra, enc_u64, enc_b256, enc_u256, enc_bytes, enc_byteList, enc_bitlist, enc_list, enc_varList, enc_vector, enc_transactions]
  simp [layout, places, rest, withdrawalBytes, row, le8]

theorem lay_depositRequest : depositRequest.codec.enc = depositRequestBytes := by
  funext x
  rw [depositRequest, struct_layout (good_cons (good_bytes 48) <| good_cons good_b256 <| good_cons good_u64 <| good_cons (good_bytes 96) <| good_cons good_u64 good_nil)]
  simp only [Fields.cons, Fields.nil, Rec.cons, Rec.nil, parts, field_u64, field_b256, field_u256, field_bytes, field_byteList, field_bitlist, field_list, field_varList, field_vector, field_transactions, field_header, field_syncAggregate, field_eth1Data, field_signedHeader, field_proposerSlashing, field_checkpoint, field_attestationData, field_indexedAttestation, field_attesterSlashing, field_attestationBase, field_attestationElectra, field_depositData, field_deposit, field_voluntaryExit, field_signedVoluntaryExit, field_blsChange, field_signedBlsChange, field_withdrawal, field_depositRequest, field_withdrawalRequest, field_consolidationRequest, field_executionRequests, field_payloadBellatrix, field_payloadCapella, field_payloadDeneb, field_bodyBellatrix, field_bodyCapella, field_bodyDeneb, field_bodyElectra, enc_u64, enc_b256, enc_u256, enc_bytes, enc_byteList, enc_bitlist, enc_list, enc_varList, enc_vector, enc_transactions]
  simp [layout, places, rest, depositRequestBytes, row, le8]

theorem lay_withdrawalRequest : withdrawalRequest.codec.enc = withdrawalRequestBytes := by
  funext x
  rw [withdrawalRequest, struct_layout (good_cons (good_bytes 20) <| good_cons (good_bytes 48) <| good_cons good_u64 good_nil)]
  simp only [Fields.cons, Fields.nil, Rec.cons, Rec.nil, parts, field_u64, field_b256, field_u256, field_bytes, field_byteList, field_bitlist, field_list, field_varList, field_vector, field_transactions, field_header, field_syncAggregate, field_eth1Data, field_signedHeader, field_proposerSlashing, field_checkpoint, field_attestationData, field_indexedAttestation, field_attesterSlashing, field_attestationBase, field_attestationElectra, field_depositData, field_deposit, field_voluntaryExit, field_signedVoluntaryExit, field_blsChange, field_signedBlsChange, field_withdrawal, field_depositRequest, field_withdrawalRequest, field_consolidationRequest, field_executionRequests, field_payloadBellatrix, field_payloadCapella, field_payloadDeneb, field_bodyBellatrix, field_bodyCapella, field_bodyDeneb, field_bodyElectra, enc_u64, enc_b256, enc_u256, enc_bytes, enc_byteList, enc_bitlist, enc_list, enc_varList, enc_vector, enc_transactions]
  simp [layout, places, rest, withdrawalRequestBytes, row, le8]

theorem lay_consolidationRequest : consolidationRequest.codec.enc = consolidationRequestBytes := by
  funext x
  rw [consolidationRequest, struct_layout (good_cons (good_bytes 20) <| good_cons (good_bytes 48) <| good_cons (good_bytes 48) good_nil)]
  simp only [Fields.cons, Fields.nil, Rec.cons, Rec.nil, parts, field_u64, field_b256, field_u256, field_bytes, field_byteList, field_bitlist, field_list, field_varList, field_vector, field_transactions, field_header, field_syncAggregate, field_eth1Data, field_signedHeader, field_proposerSlashing, field_checkpoint, field_attestationData, field_indexedAttestation, field_attesterSlashing, field_attestationBase, field_attestationElectra, field_depositData, field_deposit, field_voluntaryExit, field_signedVoluntaryExit, field_blsChange, field_signedBlsChange, field_withdrawal, field_depositRequest, field_withdrawalRequest, field_consolidationRequest, field_executionRequests, field_payloadBellatrix, field_payloadCapella, field_payloadDeneb, field_bodyBellatrix, field_bodyCapella, field_bodyDeneb, field_bodyElectra, enc_u64, enc_b256, enc_u256, enc_bytes, enc_byteList, enc_bitlist, enc_list, enc_varList, enc_vector, enc_transactions]
  simp [layout, places, rest, consolidationRequestBytes, row, le8]

theorem lay_executionRequests : executionRequests.codec.enc = executionRequestsBytes := by
  funext x
  rw [executionRequests, struct_layout (good_cons (good_list good_depositRequest (by decide) rfl (by decide)) <| good_cons (good_list good_withdrawalRequest (by decide) rfl (by decide)) <| good_cons (good_list good_consolidationRequest (by decide) rfl (by decide)) good_nil)]
  simp only [Fields.cons, Fields.nil, Rec.cons, Rec.nil, parts, field_u64, field_b256, field_u256, field_bytes, field_byteList, field_bitlist, field_list, field_varList, field_vector, field_transactions, field_header, field_syncAggregate, field_eth1Data, field_signedHeader, field_proposerSlashing, field_checkpoint, field_attestationData, field_indexedAttestation, field_attesterSlashing, field_attestationBase, field_attestationElectra, field_depositData, field_deposit, field_voluntaryExit, field_signedVoluntaryExit, field_blsChange, field_signedBlsChange, field_withdrawal, field_depositRequest, field_withdrawalRequest, field_consolidationRequest, field_executionRequests, field_payloadBellatrix, field_payloadCapella, field_payloadDeneb, field_bodyBellatrix, field_bodyCapella, field_bodyDeneb, field_bodyElectra, enc_u64, enc_b256, enc_u256, enc_bytes, enc_byteList, enc_bitlist, enc_list, enc_varList, enc_vector, enc_transactions, lay_depositRequest, lay_withdrawalRequest, lay_consolidationRequest]
  rfl

theorem lay_payloadBellatrix : payloadBellatrix.codec.enc = payloadBellatrixBytes := by
  funext x
  rw [payloadBellatrix, struct_layout (good_cons good_b256 <| good_cons (good_bytes 20) <| good_cons good_b256 <| good_cons good_b256 <| good_cons (good_bytes 256) <| good_cons good_b256 <| good_cons good_u64 <| good_cons good_u64 <| good_cons good_u64 <| good_cons good_u64 <| good_cons (good_byteList (by decide)) <| good_cons good_u256 <| good_cons good_b256 <| good_cons good_transactions good_nil)]
  simp only [Fields.cons, Fields.nil, Rec.cons, Rec.nil, parts, field_u64, field_b256, field_u256, field_bytes, field_byteList, field_bitlist, field_list, field_varList, field_vector, field_transactions, field_header, field_syncAggregate, field_eth1Data, field_signedHeader, field_proposerSlashing, field_checkpoint, field_attestationData, field_indexedAttestation, field_attesterSlashing, field_attestationBase, field_attestationElectra, field_depositData, field_deposit, field_voluntaryExit, field_signedVoluntaryExit, field_blsChange, field_signedBlsChange, field_withdrawal, field_depositRequest, field_withdrawalRequest, field_consolidationRequest, field_executionRequests, field_payloadBellatrix, field_payloadCapella, field_payloadDeneb, field_bodyBellatrix, field_bodyCapella, field_bodyDeneb, field_bodyElectra, enc_u64, enc_b256, enc_u256, enc_bytes, enc_byteList, enc_bitlist, enc_list, enc_varList, enc_vector, enc_transactions]
  rfl

theorem lay_payloadCapella : payloadCapella.codec.enc = payloadCapellaBytes := by
  funext x
  rw [payloadCapella, struct_layout (good_cons good_b256 <| good_cons (good_bytes 20) <| good_cons good_b256 <| good_cons good_b256 <| good_cons (good_bytes 256) <| good_cons good_b256 <| good_cons good_u64 <| good_cons good_u64 <| good_cons good_u64 <| good_cons good_u64 <| good_cons (good_byteList (by decide)) <| good_cons good_u256 <| good_cons good_b256 <| good_cons good_transactions <| good_cons (good_list good_withdrawal (by decide) rfl (by decide)) good_nil)]
  simp only [Fields.cons, Fields.nil, Rec.cons, Rec.nil, parts, field_u64, field_b256, field_u256, field_bytes, field_byteList, field_bitlist, field_list, field_varList, field_vector, field_transactions, field_header, field_syncAggregate, field_eth1Data, field_signedHeader, field_proposerSlashing, field_checkpoint, field_attestationData, field_indexedAttestation, field_attesterSlashing, field_attestationBase, field_attestationElectra, field_depositData, field_deposit, field_voluntaryExit, field_signedVoluntaryExit, field_blsChange, field_signedBlsChange, field_withdrawal, field_depositRequest, field_withdrawalRequest, field_consolidationRequest, field_executionRequests, field_payloadBellatrix, field_payloadCapella, field_payloadDeneb, field_bodyBellatrix, field_bodyCapella, field_bodyDeneb, field_bodyElectra, enc_u64, enc_b256, enc_u256, enc_bytes, enc_byteList, enc_bitlist, enc_list, enc_varList, enc_vector, enc_transactions, lay_withdrawal]
  rfl

theorem lay_payloadDeneb : payloadDeneb.codec.enc = payloadDenebBytes := by
  funext x
  rw [payloadDeneb, struct_layout (good_cons good_b256 <| good_cons (good_bytes 20) <| good_cons good_b256 <| good_cons good_b256 <| good_cons (good_bytes 256) <| good_cons good_b256 <| good_cons good_u64 <| good_cons good_u64 <| good_cons good_u64 <| good_cons good_u64 <| good_cons (good_byteList (by decide)) <| good_cons good_u256 <| good_cons good_b256 <| good_cons good_transactions <| good_cons (good_list good_withdrawal (by decide) rfl (by decide)) <| good_cons good_u64 <| good_cons good_u64 good_nil)]
  simp only [Fields.cons, Fields.nil, Rec.cons, Rec.nil, parts, field_u64, field_b256, field_u256, field_bytes, field_byteList, field_bitlist, field_list, field_varList, field_vector, field_transactions, field_header, field_syncAggregate, field_eth1Data, field_signedHeader, field_proposerSlashing, field_checkpoint, field_attestationData, field_indexedAttestation, field_attesterSlashing, field_attestationBase, field_attestationElectra, field_depositData, field_deposit, field_voluntaryExit, field_signedVoluntaryExit, field_blsChange, field_signedBlsChange, field_withdrawal, field_depositRequest, field_withdrawalRequest, field_consolidationRequest, field_executionRequests, field_payloadBellatrix, field_payloadCapella, field_payloadDeneb, field_bodyBellatrix, field_bodyCapella, field_bodyDeneb, field_bodyElectra, enc_u64, enc_b256, enc_u256, enc_bytes, enc_byteList, enc_bitlist, enc_list, enc_varList, enc_vector, enc_transactions, lay_withdrawal]
  rfl

theorem lay_bodyBellatrix : bodyBellatrix.codec.enc = bodyBellatrixBytes := by
  funext x
  rw [bodyBellatrix, struct_layout (good_cons (good_bytes 96) <| good_cons good_eth1Data <| good_cons good_b256 <| good_cons (good_list good_proposerSlashing (by decide) rfl (by decide)) <| good_cons (good_varList (good_attesterSlashing (by decide)) (by decide)) <| good_cons (good_varList good_attestationBase (by decide)) <| good_cons (good_list good_deposit (by decide) rfl (by decide)) <| good_cons (good_list good_signedVoluntaryExit (by decide) rfl (by decide)) <| good_cons good_syncAggregate <| good_cons good_payloadBellatrix good_nil)]
  simp only [Fields.cons, Fields.nil, Rec.cons, Rec.nil, parts, field_u64, field_b256, field_u256, field_bytes, field_byteList, field_bitlist, field_list, field_varList, field_vector, field_transactions, field_header, field_syncAggregate, field_eth1Data, field_signedHeader, field_proposerSlashing, field_checkpoint, field_attestationData, field_indexedAttestation, field_attesterSlashing, field_attestationBase, field_attestationElectra, field_depositData, field_deposit, field_voluntaryExit, field_signedVoluntaryExit, field_blsChange, field_signedBlsChange, field_withdrawal, field_depositRequest, field_withdrawalRequest, field_consolidationRequest, field_executionRequests, field_payloadBellatrix, field_payloadCapella, field_payloadDeneb, field_bodyBellatrix, field_bodyCapella, field_bodyDeneb, field_bodyElectra, enc_u64, enc_b256, enc_u256, enc_bytes, enc_byteList, enc_bitlist, enc_list, enc_varList, enc_vector, enc_transactions, lay_eth1Data, lay_proposerSlashing, lay_attesterSlashing (max := 2048) (by decide), lay_attestationBase, lay_deposit, lay_signedVoluntaryExit, lay_syncAggregate, lay_payloadBellatrix]
  rfl

theorem lay_bodyCapella : bodyCapella.codec.enc = bodyCapellaBytes := by
  funext x
  rw [bodyCapella, struct_layout (good_cons (good_bytes 96) <| good_cons good_eth1Data <| good_cons good_b256 <| good_cons (good_list good_proposerSlashing (by decide) rfl (by decide)) <| good_cons (good_varList (good_attesterSlashing (by decide)) (by decide)) <| good_cons (good_varList good_attestationBase (by decide)) <| good_cons (good_list good_deposit (by decide) rfl (by decide)) <| good_cons (good_list good_signedVoluntaryExit (by decide) rfl (by decide)) <| good_cons good_syncAggregate <| good_cons good_payloadCapella <| good_cons (good_list good_signedBlsChange (by decide) rfl (by decide)) good_nil)]
  simp only [Fields.cons, Fields.nil, Rec.cons, Rec.nil, parts, field_u64, field_b256, field_u256, field_bytes, field_byteList, field_bitlist, field_list, field_varList, field_vector, field_transactions, field_header, field_syncAggregate, field_eth1Data, field_signedHeader, field_proposerSlashing, field_checkpoint, field_attestationData, field_indexedAttestation, field_attesterSlashing, field_attestationBase, field_attestationElectra, field_depositData, field_deposit, field_voluntaryExit, field_signedVoluntaryExit, field_blsChange, field_signedBlsChange, field_withdrawal, field_depositRequest, field_withdrawalRequest, field_consolidationRequest, field_executionRequests, field_payloadBellatrix, field_payloadCapella, field_payloadDeneb, field_bodyBellatrix, field_bodyCapella, field_bodyDeneb, field_bodyElectra, enc_u64, enc_b256, enc_u256, enc_bytes, enc_byteList, enc_bitlist, enc_list, enc_varList, enc_vector, enc_transactions, lay_eth1Data, lay_proposerSlashing, lay_attesterSlashing (max := 2048) (by decide), lay_attestationBase, lay_deposit, lay_signedVoluntaryExit, lay_syncAggregate, lay_payloadCapella, lay_signedBlsChange]
  rfl

theorem lay_bodyDeneb : bodyDeneb.codec.enc = bodyDenebBytes := by
  funext x
  rw [bodyDeneb, struct_layout (good_cons (good_bytes 96) <| good_cons good_eth1Data <| good_cons good_b256 <| good_cons (good_list good_proposerSlashing (by decide) rfl (by decide)) <| good_cons (good_varList (good_attesterSlashing (by decide)) (by decide)) <| good_cons (good_varList good_attestationBase (by decide)) <| good_cons (good_list good_deposit (by decide) rfl (by decide)) <| good_cons (good_list good_signedVoluntaryExit (by decide) rfl (by decide)) <| good_cons good_syncAggregate <| good_cons good_payloadDeneb <| good_cons (good_list good_signedBlsChange (by decide) rfl (by decide)) <| good_cons (good_list (good_bytes 48) (by decide) rfl (by decide)) good_nil)]
  simp only [Fields.cons, Fields.nil, Rec.cons, Rec.nil, parts, field_u64, field_b256, field_u256, field_bytes, field_byteList, field_bitlist, field_list, field_varList, field_vector, field_transactions, field_header, field_syncAggregate, field_eth1Data, field_signedHeader, field_proposerSlashing, field_checkpoint, field_attestationData, field_indexedAttestation, field_attesterSlashing, field_attestationBase, field_attestationElectra, field_depositData, field_deposit, field_voluntaryExit, field_signedVoluntaryExit, field_blsChange, field_signedBlsChange, field_withdrawal, field_depositRequest, field_withdrawalRequest, field_consolidationRequest, field_executionRequests, field_payloadBellatrix, field_payloadCapella, field_payloadDeneb, field_bodyBellatrix, field_bodyCapella, field_bodyDeneb, field_bodyElectra, enc_u64, enc_b256, enc_u256, enc_bytes, enc_byteList, enc_bitlist, enc_list, enc_varList, enc_vector, enc_transactions, lay_eth1Data, lay_proposerSlashing, lay_attesterSlashing (max := 2048) (by decide), lay_attestationBase, lay_deposit, lay_signedVoluntaryExit, lay_syncAggregate, lay_payloadDeneb, lay_signedBlsChange]
  rfl

theorem lay_bodyElectra : bodyElectra.codec.enc = bodyElectraBytes := by
  funext x
  rw [bodyElectra, struct_layout (good_cons (good_bytes 96) <| good_cons good_eth1Data <| good_cons good_b256 <| good_cons (good_list good_proposerSlashing (by decide) rfl (by decide)) <| good_cons (good_varList (good_attesterSlashing (by decide)) (by decide)) <| good_cons (good_varList good_attestationElectra (by decide)) <| good_cons (good_list good_deposit (by decide) rfl (by decide)) <| good_cons (good_list good_signedVoluntaryExit (by decide) rfl (by decide)) <| good_cons good_syncAggregate <| good_cons good_payloadDeneb <| good_cons (good_list good_signedBlsChange (by decide) rfl (by decide)) <| good_cons (good_list (good_bytes 48) (by decide) rfl (by decide)) <| good_cons good_executionRequests good_nil)]
  simp only [Fields.cons, Fields.nil, Rec.cons, Rec.nil, parts, field_u64, field_b256, field_u256, field_bytes, field_byteList, field_bitlist, field_list, field_varList, field_vector, field_transactions, field_header, field_syncAggregate, field_eth1Data, field_signedHeader, field_proposerSlashing, field_checkpoint, field_attestationData, field_indexedAttestation, field_attesterSlashing, field_attestationBase, field_attestationElectra, field_depositData, field_deposit, field_voluntaryExit, field_signedVoluntaryExit, field_blsChange, field_signedBlsChange, field_withdrawal, field_depositRequest, field_withdrawalRequest, field_consolidationRequest, field_executionRequests, field_payloadBellatrix, field_payloadCapella, field_payloadDeneb, field_bodyBellatrix, field_bodyCapella, field_bodyDeneb, field_bodyElectra, enc_u64, enc_b256, enc_u256, enc_bytes, enc_byteList, enc_bitlist, enc_list, enc_varList, enc_vector, enc_transactions, lay_eth1Data, lay_proposerSlashing, lay_attesterSlashing (max := 131072) (by decide), lay_attestationElectra, lay_deposit, lay_signedVoluntaryExit, lay_syncAggregate, lay_payloadDeneb, lay_signedBlsChange, lay_executionRequests]
  rfl

theorem lay_body : (f : Fork) → (body f).codec.enc = bodyBytes f
  | .bellatrix => lay_bodyBellatrix
  | .capella => lay_bodyCapella
  | .deneb => lay_bodyDeneb
  | .electra => lay_bodyElectra

theorem bytes_length (x : Id) : x.bytes.length = 32 := by simp [Id.bytes]

theorem lay_block (f : Fork) (b : Block f) : (block f).codec.enc b = blockBytes b := by
  rw [block, struct_layout (good_cons good_u64 <| good_cons good_u64 <| good_cons good_b256 <| good_cons good_b256 <|
    good_cons (good_body f) good_nil)]
  simp only [Fields.cons, Fields.nil, Rec.cons, Rec.nil, parts, field_u64, field_b256, body_var, enc_u64, enc_b256, lay_body]
  simp [layout, places, rest, blockBytes, le8, Part.size, bytes_length]

theorem lay_signed (f : Fork) (b : Signed f) : (signed f).codec.enc b = signedBytes b := by
  have hs := b.signature.2
  rw [signed, struct_layout (good_cons (good_block f) <| good_cons (good_bytes 96) good_nil)]
  simp only [Fields.cons, Fields.nil, Rec.cons, Rec.nil, parts, field_bytes, block_var, enc_bytes, lay_block]
  simp [layout, places, rest, signedBytes, Part.size, hs]

end Verif.BeaconBlock
