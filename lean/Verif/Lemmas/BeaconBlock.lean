import Verif.Model.BeaconBlock
import Verif.Lemmas.TreeHash

/-! Beacon blocks: the codecs are sound, the roots binding. -/

namespace Verif.BeaconBlock
open Verif.Ssz Verif.SszT Verif.TreeHash
open Verif.LightClient (Header)
open Verif.HeaderValidator (Fork)
open Verif.Merkle (CollisionBetween)

theorem good_header : Good header :=
  good_struct (good_cons good_u64 <| good_cons good_u64 <| good_cons good_b256 <| good_cons good_b256 <|
    good_cons good_b256 good_nil) (fun _ => rfl) (fun _ => rfl)
theorem good_syncAggregate : Good syncAggregate :=
  good_struct (good_cons (good_bytes 64) <| good_cons (good_bytes 96) good_nil) (fun _ => rfl) (fun _ => rfl)
theorem good_transactions : Good transactions := good_varList (good_byteList (by decide)) (by decide)
theorem good_eth1Data : Good eth1Data :=
  good_struct (good_cons good_b256 <| good_cons good_u64 <| good_cons good_b256 good_nil) (fun _ => rfl) (fun _
    => rfl)
theorem good_signedHeader : Good signedHeader :=
  good_struct (good_cons good_header <| good_cons (good_bytes 96) good_nil) (fun _ => rfl) (fun _ => rfl)
theorem good_proposerSlashing : Good proposerSlashing :=
  good_struct (good_cons good_signedHeader <| good_cons good_signedHeader good_nil) (fun _ => rfl) (fun _ =>
    rfl)
theorem good_checkpoint : Good checkpoint :=
  good_struct (good_cons good_u64 <| good_cons good_b256 good_nil) (fun _ => rfl) (fun _ => rfl)
theorem good_attestationData : Good attestationData :=
  good_struct (good_cons good_u64 <| good_cons good_u64 <| good_cons good_b256 <| good_cons good_checkpoint <|
    good_cons good_checkpoint good_nil) (fun _ => rfl) (fun _ => rfl)
theorem good_indexedAttestation {max : Nat} (hm : max < 2 ^ 256) : Good (indexedAttestation max) :=
  good_struct (good_cons (good_list good_u64 (by decide) rfl hm) <| good_cons good_attestationData <| good_cons
    (good_bytes 96) good_nil) (fun _ => rfl) (fun _ => rfl)
theorem good_attesterSlashing {max : Nat} (hm : max < 2 ^ 256) : Good (attesterSlashing max) :=
  good_struct (good_cons (good_indexedAttestation hm) <| good_cons (good_indexedAttestation hm) good_nil) (fun _
    => rfl) (fun _ => rfl)
theorem good_attestationBase : Good attestationBase :=
  good_struct (good_cons (good_bitlist (by decide)) <| good_cons good_attestationData <| good_cons (good_bytes
    96) good_nil) (fun _ => rfl) (fun _ => rfl)
theorem good_attestationElectra : Good attestationElectra :=
  good_struct (good_cons (good_bitlist (by decide)) <| good_cons good_attestationData <| good_cons (good_bytes
    96) <| good_cons (good_bytes 8) good_nil) (fun _ => rfl) (fun _ => rfl)
theorem good_depositData : Good depositData :=
  good_struct (good_cons (good_bytes 48) <| good_cons good_b256 <| good_cons good_u64 <| good_cons (good_bytes
    96) good_nil) (fun _ => rfl) (fun _ => rfl)
theorem good_deposit : Good deposit :=
  good_struct (good_cons (good_vector good_b256 rfl 33) <| good_cons good_depositData good_nil) (fun _ => rfl)
    (fun _ => rfl)
theorem good_voluntaryExit : Good voluntaryExit :=
  good_struct (good_cons good_u64 <| good_cons good_u64 good_nil) (fun _ => rfl) (fun _ => rfl)
theorem good_signedVoluntaryExit : Good signedVoluntaryExit :=
  good_struct (good_cons good_voluntaryExit <| good_cons (good_bytes 96) good_nil) (fun _ => rfl) (fun _ => rfl)
theorem good_blsChange : Good blsChange :=
  good_struct (good_cons good_u64 <| good_cons (good_bytes 48) <| good_cons (good_bytes 20) good_nil) (fun _ =>
    rfl) (fun _ => rfl)
theorem good_signedBlsChange : Good signedBlsChange :=
  good_struct (good_cons good_blsChange <| good_cons (good_bytes 96) good_nil) (fun _ => rfl) (fun _ => rfl)
theorem good_withdrawal : Good withdrawal :=
  good_struct (good_cons good_u64 <| good_cons good_u64 <| good_cons (good_bytes 20) <| good_cons good_u64
    good_nil) (fun _ => rfl) (fun _ => rfl)
theorem good_depositRequest : Good depositRequest :=
  good_struct (good_cons (good_bytes 48) <| good_cons good_b256 <| good_cons good_u64 <| good_cons (good_bytes
    96) <| good_cons good_u64 good_nil) (fun _ => rfl) (fun _ => rfl)
theorem good_withdrawalRequest : Good withdrawalRequest :=
  good_struct (good_cons (good_bytes 20) <| good_cons (good_bytes 48) <| good_cons good_u64 good_nil) (fun _ =>
    rfl) (fun _ => rfl)
theorem good_consolidationRequest : Good consolidationRequest :=
  good_struct (good_cons (good_bytes 20) <| good_cons (good_bytes 48) <| good_cons (good_bytes 48) good_nil)
    (fun _ => rfl) (fun _ => rfl)
theorem good_executionRequests : Good executionRequests :=
  good_struct (good_cons (good_list good_depositRequest (by decide) rfl (by decide)) <| good_cons (good_list
    good_withdrawalRequest (by decide) rfl (by decide)) <| good_cons (good_list good_consolidationRequest (by
    decide) rfl (by decide)) good_nil) (fun _ => rfl) (fun _ => rfl)
theorem good_payloadBellatrix : Good payloadBellatrix :=
  good_struct (good_cons good_b256 <| good_cons (good_bytes 20) <| good_cons good_b256 <| good_cons good_b256 <|
    good_cons (good_bytes 256) <| good_cons good_b256 <| good_cons good_u64 <| good_cons good_u64 <| good_cons
    good_u64 <| good_cons good_u64 <| good_cons (good_byteList (by decide)) <| good_cons good_u256 <| good_cons
    good_b256 <| good_cons good_transactions good_nil) (fun _ => rfl) (fun _ => rfl)
theorem good_payloadCapella : Good payloadCapella :=
  good_struct (good_cons good_b256 <| good_cons (good_bytes 20) <| good_cons good_b256 <| good_cons good_b256 <|
    good_cons (good_bytes 256) <| good_cons good_b256 <| good_cons good_u64 <| good_cons good_u64 <| good_cons
    good_u64 <| good_cons good_u64 <| good_cons (good_byteList (by decide)) <| good_cons good_u256 <| good_cons
    good_b256 <| good_cons good_transactions <| good_cons (good_list good_withdrawal (by decide) rfl (by
    decide)) good_nil) (fun _ => rfl) (fun _ => rfl)
theorem good_payloadDeneb : Good payloadDeneb :=
  good_struct (good_cons good_b256 <| good_cons (good_bytes 20) <| good_cons good_b256 <| good_cons good_b256 <|
    good_cons (good_bytes 256) <| good_cons good_b256 <| good_cons good_u64 <| good_cons good_u64 <| good_cons
    good_u64 <| good_cons good_u64 <| good_cons (good_byteList (by decide)) <| good_cons good_u256 <| good_cons
    good_b256 <| good_cons good_transactions <| good_cons (good_list good_withdrawal (by decide) rfl (by
    decide)) <| good_cons good_u64 <| good_cons good_u64 good_nil) (fun _ => rfl) (fun _ => rfl)
theorem good_bodyBellatrix : Good bodyBellatrix :=
  good_struct (good_cons (good_bytes 96) <| good_cons good_eth1Data <| good_cons good_b256 <| good_cons
    (good_list good_proposerSlashing (by decide) rfl (by decide)) <| good_cons (good_varList
    (good_attesterSlashing (by decide)) (by decide)) <| good_cons (good_varList good_attestationBase (by
    decide)) <| good_cons (good_list good_deposit (by decide) rfl (by decide)) <| good_cons (good_list
    good_signedVoluntaryExit (by decide) rfl (by decide)) <| good_cons good_syncAggregate <| good_cons
    good_payloadBellatrix good_nil) (fun _ => rfl) (fun _ => rfl)
theorem good_bodyCapella : Good bodyCapella :=
  good_struct (good_cons (good_bytes 96) <| good_cons good_eth1Data <| good_cons good_b256 <| good_cons
    (good_list good_proposerSlashing (by decide) rfl (by decide)) <| good_cons (good_varList
    (good_attesterSlashing (by decide)) (by decide)) <| good_cons (good_varList good_attestationBase (by
    decide)) <| good_cons (good_list good_deposit (by decide) rfl (by decide)) <| good_cons (good_list
    good_signedVoluntaryExit (by decide) rfl (by decide)) <| good_cons good_syncAggregate <| good_cons
    good_payloadCapella <| good_cons (good_list good_signedBlsChange (by decide) rfl (by decide)) good_nil) (fun
    _ => rfl) (fun _ => rfl)
theorem good_bodyDeneb : Good bodyDeneb :=
  good_struct (good_cons (good_bytes 96) <| good_cons good_eth1Data <| good_cons good_b256 <| good_cons
    (good_list good_proposerSlashing (by decide) rfl (by decide)) <| good_cons (good_varList
    (good_attesterSlashing (by decide)) (by decide)) <| good_cons (good_varList good_attestationBase (by
    decide)) <| good_cons (good_list good_deposit (by decide) rfl (by decide)) <| good_cons (good_list
    good_signedVoluntaryExit (by decide) rfl (by decide)) <| good_cons good_syncAggregate <| good_cons
    good_payloadDeneb <| good_cons (good_list good_signedBlsChange (by decide) rfl (by decide)) <| good_cons
    (good_list (good_bytes 48) (by decide) rfl (by decide)) good_nil) (fun _ => rfl) (fun _ => rfl)
theorem good_bodyElectra : Good bodyElectra :=
  good_struct (good_cons (good_bytes 96) <| good_cons good_eth1Data <| good_cons good_b256 <| good_cons
    (good_list good_proposerSlashing (by decide) rfl (by decide)) <| good_cons (good_varList
    (good_attesterSlashing (by decide)) (by decide)) <| good_cons (good_varList good_attestationElectra (by
    decide)) <| good_cons (good_list good_deposit (by decide) rfl (by decide)) <| good_cons (good_list
    good_signedVoluntaryExit (by decide) rfl (by decide)) <| good_cons good_syncAggregate <| good_cons
    good_payloadDeneb <| good_cons (good_list good_signedBlsChange (by decide) rfl (by decide)) <| good_cons
    (good_list (good_bytes 48) (by decide) rfl (by decide)) <| good_cons good_executionRequests good_nil) (fun _
    => rfl) (fun _ => rfl)

theorem good_body : (f : Fork) → Good (body f)
  | .bellatrix => good_bodyBellatrix
  | .capella => good_bodyCapella
  | .deneb => good_bodyDeneb
  | .electra => good_bodyElectra

theorem good_block (f : Fork) : Good (block f) :=
  good_struct (good_cons good_u64 <| good_cons good_u64 <| good_cons good_b256 <| good_cons good_b256 <|
    good_cons (good_body f) good_nil) (fun _ => rfl) (fun _ => rfl)

theorem good_signed (f : Fork) : Good (signed f) :=
  good_struct (good_cons (good_block f) <| good_cons (good_bytes 96) good_nil) (fun _ => rfl) (fun _ => rfl)

theorem body_var (f : Fork) : (body f).codec.field = .var := by cases f <;> rfl
theorem block_var (f : Fork) : (block f).codec.field = .var := by cases f <;> rfl

theorem decodeSigned_eq (f : Fork) (bs : Bytes) :
    decodeSigned f bs = ((signed f).codec.dec bs).map fun b => ⟨f, b⟩ := by
  simp only [decodeSigned, decodeSignedWith, signed, struct, container, Fields.cons, Fields.nil, Rec.cons, Rec.nil,
    block_var, decodeBlock, bytes]
  show (match decodeContainer [.var, .fixed 96] bs with | some [m, s] => _ | _ => none) = _
  have hf : [Field.var, (bytesN 96).field] = [.var, .fixed 96] := rfl
  rw [hf]
  cases hd : decodeContainer [.var, .fixed 96] bs with
  | none => rfl
  | some vs =>
    rcases vs with _ | ⟨m, _ | ⟨s, _ | ⟨t, vs⟩⟩⟩
    · rfl
    · cases hb : (block f).codec.dec m <;> simp [hb]
    · cases hb : (block f).codec.dec m <;> cases hs : (bytesN 96).dec s <;> simp [hb, hs, fromBlock]
    · cases hb : (block f).codec.dec m <;> cases hs : (bytesN 96).dec s <;> simp [hb, hs]

end Verif.BeaconBlock
