import Verif.Lemmas.BeaconState
import Verif.Lemmas.BeaconBlockHash
import Verif.Props.BeaconStateSpec

/-! The hashes of beacon states are those of the trees of the specification. -/

namespace Verif.BeaconState
open Verif.Ssz Verif.TreeHash Verif.BeaconBlock Verif.Props.BeaconBlockSpec Verif.Props.BeaconStateSpec
open Verif.SszT hiding u256 byteList list varList vector
open Verif.HeaderValidator (Fork depthFor leNode)
open Verif.TreeHash (u64 u256 byteList list varList vector)
open Verif.Merkle (listRoot)

set_option linter.unusedSimpArgs false

variable (H : Id → Id → Id)

theorem root_u8 (x : UInt8) : (u8.tree x).root H = num x.toNat := rfl
theorem root_flag (x : Bool) : (flag.tree x).root H = num (if x then 1 else 0) := rfl
theorem root_fourBits (x : FourBits) : (fourBits.tree x).root H = num x.1.toNat := rfl
theorem root_bytes4 (x : BytesN 4) : ((bytes 4).tree x).root H = short H x.1 := root_bytes H (by decide) x

theorem root_vector {α} {n : Nat} {t : Ty α} (ht : Good t) (hb : t.basic = false) {each : α → Id}
    (he : ∀ x, (t.tree x).root H = each x) (x : Vec α n) :
    ((vector t n).tree x).root H = tree H (depthFor n) (x.1.map each) := by
  have hc : leafCount t n = n := by simp [leafCount, hb]
  simp only [vector]
  rw [root_ofLeaves H _ _ (depth_le (leafCount_fits ht.binding x.2 (Nat.le_refl n))), hc]
  simp only [seqLeaves, hb, Bool.false_eq_true, if_false, List.map_map]
  show listRoot H _ (List.map (fun x => (t.tree x).root H) x.1) = _
  simp only [he]; rfl

theorem root_ids {n d : Nat} (hd : depthFor n = d) (x : Vec Id n) : ((vector b256 n).tree x).root H = tree H d x.1 := by
  rw [root_vector H good_b256 rfl (each := id) (fun _ => rfl), List.map_id, hd]
theorem root_ids8192 (x : Vec Id 8192) : ((vector b256 8192).tree x).root H = tree H 13 x.1 := root_ids H (by decide) x
theorem root_ids65536 (x : Vec Id 65536) : ((vector b256 65536).tree x).root H = tree H 16 x.1 := root_ids H (by decide) x

theorem root_idList (x : BList Id 16777216) : ((list b256 16777216).tree x).root H = listOf H 24 id x.1 := by
  rw [root_list H good_b256 rfl (each := id) (fun _ => rfl), show depthFor 16777216 = 24 by decide]

theorem root_numbers (x : Vec UInt64 8192) : ((vector u64 8192).tree x).root H = tree H 11 (words (row le8 x.1)) := by
  simp only [vector]
  rw [root_ofLeaves H _ _ (depth_le (leafCount_fits binding_u64 x.2 (Nat.le_refl 8192)))]
  have : (seqLeaves u64 x.1).map (HTree.root H) = words (row le8 x.1) := by
    show (byteLeaves _).map _ = _
    rw [byteLeaves_words]; rfl
  rw [this, show leafCount u64 8192 = 2048 from rfl, show depthFor 2048 = 11 by decide]
  rfl

theorem root_balances (x : BList UInt64 1099511627776) :
    ((list u64 1099511627776).tree x).root H = indicesHash H 38 x.1 := root_indices H (by decide) (by decide) x

theorem flatten_u8 (l : List UInt8) : (l.map u8.codec.enc).flatten = l := by
  induction l with
  | nil => rfl
  | cons b l ih => exact congrArg (b :: ·) ih

theorem root_participation (x : BList UInt8 1099511627776) :
    ((list u8 1099511627776).tree x).root H = bytesHash H 35 x.1 := by
  show (listTree u8 1099511627776 x).root H = _
  simp only [listTree, root_withLength, bytesHash]
  rw [root_ofLeaves H _ _ (depth_le (leafCount_fits binding_u8 rfl x.2))]
  have : (seqLeaves u8 x.1).map (HTree.root H) = words x.1 := by
    show (byteLeaves (x.1.map u8.codec.enc).flatten).map _ = _
    rw [byteLeaves_words, flatten_u8]
  rw [this, show leafCount u8 1099511627776 = 34359738368 from rfl, show depthFor 34359738368 = 35 by decide]
  rfl

theorem hash_forkData (x : _) : (forkData.tree x).root H = forkHash H x := by
  rw [forkData, struct_root H (good_cons (good_bytes 4) <|
    good_cons (good_bytes 4) <|
    good_cons good_u64 good_nil)]
  simp only [Fields.cons, Fields.nil, List.map_cons, List.map_nil, root_bytes4 H, root_u64 H]
  rfl

theorem hash_validator (x : _) : (validator.tree x).root H = validatorHash H x := by
  rw [validator, struct_root H (good_cons (good_bytes 48) <|
    good_cons good_b256 <|
    good_cons good_u64 <|
    good_cons good_flag <|
    good_cons good_u64 <|
    good_cons good_u64 <|
    good_cons good_u64 <|
    good_cons good_u64 good_nil)]
  simp only [Fields.cons, Fields.nil, List.map_cons, List.map_nil, root_bytes48 H, root_b256 H, root_u64 H, root_flag H]
  rfl

theorem hash_syncCommittee (x : _) : (syncCommittee.tree x).root H = committeeHash H x := by
  rw [syncCommittee, struct_root H (good_cons (good_vector (good_bytes 48) rfl 512) <|
    good_cons (good_bytes 48) good_nil)]
  simp only [Fields.cons, Fields.nil, List.map_cons, List.map_nil, root_vector H (n := 512) (good_bytes 48) rfl (root_bytes48 H), show depthFor 512 = 9 by decide, root_bytes48 H]
  rfl

theorem hash_execBellatrix (x : _) : (execBellatrix.tree x).root H = execBellatrixHash H x := by
  rw [execBellatrix, struct_root H (good_cons good_b256 <|
    good_cons (good_bytes 20) <|
    good_cons good_b256 <|
    good_cons good_b256 <|
    good_cons (good_bytes 256) <|
    good_cons good_b256 <|
    good_cons good_u64 <|
    good_cons good_u64 <|
    good_cons good_u64 <|
    good_cons good_u64 <|
    good_cons (good_byteList (by decide)) <|
    good_cons good_u256 <|
    good_cons good_b256 <|
    good_cons good_b256 good_nil)]
  simp only [Fields.cons, Fields.nil, List.map_cons, List.map_nil, root_b256 H, root_bytes20 H, root_bytes256 H, root_u64 H, root_extra H, root_u256 H]
  rfl

theorem hash_execCapella (x : _) : (execCapella.tree x).root H = execCapellaHash H x := by
  rw [execCapella, struct_root H (good_cons good_b256 <|
    good_cons (good_bytes 20) <|
    good_cons good_b256 <|
    good_cons good_b256 <|
    good_cons (good_bytes 256) <|
    good_cons good_b256 <|
    good_cons good_u64 <|
    good_cons good_u64 <|
    good_cons good_u64 <|
    good_cons good_u64 <|
    good_cons (good_byteList (by decide)) <|
    good_cons good_u256 <|
    good_cons good_b256 <|
    good_cons good_b256 <|
    good_cons good_b256 good_nil)]
  simp only [Fields.cons, Fields.nil, List.map_cons, List.map_nil, root_b256 H, root_bytes20 H, root_bytes256 H, root_u64 H, root_extra H, root_u256 H]
  rfl

theorem hash_execDeneb (x : _) : (execDeneb.tree x).root H = execDenebHash H x := by
  rw [execDeneb, struct_root H (good_cons good_b256 <|
    good_cons (good_bytes 20) <|
    good_cons good_b256 <|
    good_cons good_b256 <|
    good_cons (good_bytes 256) <|
    good_cons good_b256 <|
    good_cons good_u64 <|
    good_cons good_u64 <|
    good_cons good_u64 <|
    good_cons good_u64 <|
    good_cons (good_byteList (by decide)) <|
    good_cons good_u256 <|
    good_cons good_b256 <|
    good_cons good_b256 <|
    good_cons good_b256 <|
    good_cons good_u64 <|
    good_cons good_u64 good_nil)]
  simp only [Fields.cons, Fields.nil, List.map_cons, List.map_nil, root_b256 H, root_bytes20 H, root_bytes256 H, root_u64 H, root_extra H, root_u256 H]
  rfl

theorem hash_summary (x : _) : (summary.tree x).root H = summaryHash H x := by
  rw [summary, struct_root H (good_cons good_b256 <|
    good_cons good_b256 good_nil)]
  simp only [Fields.cons, Fields.nil, List.map_cons, List.map_nil, root_b256 H]
  rfl

theorem hash_pendingDeposit (x : _) : (pendingDeposit.tree x).root H = pendingDepositHash H x := by
  rw [pendingDeposit, struct_root H (good_cons (good_bytes 48) <|
    good_cons good_b256 <|
    good_cons good_u64 <|
    good_cons (good_bytes 96) <|
    good_cons good_u64 good_nil)]
  simp only [Fields.cons, Fields.nil, List.map_cons, List.map_nil, root_bytes48 H, root_b256 H, root_u64 H, root_bytes96 H]
  rfl

theorem hash_pendingWithdrawal (x : _) : (pendingWithdrawal.tree x).root H = pendingWithdrawalHash H x := by
  rw [pendingWithdrawal, struct_root H (good_cons good_u64 <|
    good_cons good_u64 <|
    good_cons good_u64 good_nil)]
  simp only [Fields.cons, Fields.nil, List.map_cons, List.map_nil, root_u64 H]
  rfl

theorem hash_pendingConsolidation (x : _) : (pendingConsolidation.tree x).root H = pendingConsolidationHash H x := by
  rw [pendingConsolidation, struct_root H (good_cons good_u64 <|
    good_cons good_u64 good_nil)]
  simp only [Fields.cons, Fields.nil, List.map_cons, List.map_nil, root_u64 H]
  rfl

theorem trees_tailBellatrix (t : TailBellatrix) : (tailBellatrix.trees t).map (HTree.root H) = tailHashes H .bellatrix t := by
  rw [tailBellatrix]
  simp only [fieldsAs, Fields.cons, Fields.nil, List.map_cons, List.map_nil, hash_execBellatrix H]
  rfl

theorem trees_tailCapella (t : TailCapella) : (tailCapella.trees t).map (HTree.root H) = tailHashes H .capella t := by
  rw [tailCapella]
  simp only [fieldsAs, Fields.cons, Fields.nil, List.map_cons, List.map_nil, hash_execCapella H, root_u64 H, root_list H (max := 16777216) good_summary rfl (hash_summary H), show depthFor 16777216 = 24 by decide]
  rfl

theorem trees_tailDeneb (t : TailDeneb) : (tailDeneb.trees t).map (HTree.root H) = tailHashes H .deneb t := by
  rw [tailDeneb]
  simp only [fieldsAs, Fields.cons, Fields.nil, List.map_cons, List.map_nil, hash_execDeneb H, root_u64 H, root_list H (max := 16777216) good_summary rfl (hash_summary H), show depthFor 16777216 = 24 by decide]
  rfl

theorem trees_tailElectra (t : TailElectra) : (tailElectra.trees t).map (HTree.root H) = tailHashes H .electra t := by
  rw [tailElectra]
  simp only [fieldsAs, Fields.cons, Fields.nil, List.map_cons, List.map_nil, hash_execDeneb H, root_u64 H, root_list H (max := 16777216) good_summary rfl (hash_summary H), show depthFor 16777216 = 24 by decide, root_list H (max := 134217728) good_pendingDeposit rfl (hash_pendingDeposit H), show depthFor 134217728 = 27 by decide, root_list H (max := 134217728) good_pendingWithdrawal rfl (hash_pendingWithdrawal H), show depthFor 134217728 = 27 by decide, root_list H (max := 262144) good_pendingConsolidation rfl (hash_pendingConsolidation H), show depthFor 262144 = 18 by decide]
  rfl

theorem trees_tail : (f : Fork) → (t : Tail f) → ((tail f).trees t).map (HTree.root H) = tailHashes H f t
  | .bellatrix, t => trees_tailBellatrix H t
  | .capella, t => trees_tailCapella H t
  | .deneb, t => trees_tailDeneb H t
  | .electra, t => trees_tailElectra H t

theorem depth_state : (f : Fork) → depthFor (24 + (tail f).ssz.fields.length) = stateDepth f
  | .bellatrix => by decide
  | .capella => by decide
  | .deneb => by decide
  | .electra => by decide

theorem hash_state {f : Fork} (s : State f) : ((state f).tree s).root H = stateHash H s := by
  rw [state, struct_root H (good_cons good_u64 <|
    good_cons good_b256 <|
    good_cons good_u64 <|
    good_cons good_forkData <|
    good_cons good_header <|
    good_cons (good_vector good_b256 rfl 8192) <|
    good_cons (good_vector good_b256 rfl 8192) <|
    good_cons (good_list good_b256 (by decide) rfl (by decide)) <|
    good_cons good_eth1Data <|
    good_cons (good_list good_eth1Data (by decide) rfl (by decide)) <|
    good_cons good_u64 <|
    good_cons (good_list good_validator (by decide) rfl (by decide)) <|
    good_cons (good_list good_u64 (by decide) rfl (by decide)) <|
    good_cons (good_vector good_b256 rfl 65536) <|
    good_cons (good_vector good_u64 rfl 8192) <|
    good_cons (good_list good_u8 (by decide) rfl (by decide)) <|
    good_cons (good_list good_u8 (by decide) rfl (by decide)) <|
    good_cons good_fourBits <|
    good_cons good_checkpoint <|
    good_cons good_checkpoint <|
    good_cons good_checkpoint <|
    good_cons (good_list good_u64 (by decide) rfl (by decide)) <|
    good_cons good_syncCommittee <|
    good_cons good_syncCommittee <|
    good_tail f)]
  simp only [Fields.cons, Rec.cons, List.map_cons, trees_tail, root_u64 H, root_b256 H, hash_forkData H, hash_header H, root_ids8192 H, root_idList H, hash_eth1Data H, root_list H (max := 2048) good_eth1Data rfl (hash_eth1Data H), show depthFor 2048 = 11 by decide, root_list H (max := 1099511627776) good_validator rfl (hash_validator H), show depthFor 1099511627776 = 40 by decide, root_balances H, root_ids65536 H, root_numbers H, root_participation H, root_fourBits H, hash_checkpoint H, hash_syncCommittee H]
  simp only [List.length_cons]
  rw [show (tail f).ssz.fields.length + 1 + 1 + 1 + 1 + 1 + 1 + 1 + 1 + 1 + 1 + 1 + 1 + 1 + 1 + 1 + 1 + 1 + 1 + 1 + 1 + 1 + 1 + 1 + 1 =
    24 + (tail f).ssz.fields.length by omega, depth_state]
  rfl

theorem hash_batch (x : Batch) : (batch.tree x).root H = H (tree H 13 x.blockRoots.1) (tree H 13 x.stateRoots.1) := by
  rw [batch, struct_root H (good_cons (good_vector good_b256 rfl 8192) <|
    good_cons (good_vector good_b256 rfl 8192) good_nil)]
  simp only [Fields.cons, Fields.nil, List.map_cons, List.map_nil, root_ids8192 H]
  rfl

theorem common_leaves {f : Fork} (s : State f) : stateHashes H s = commonLeaves H s ++ tailHashes H f s.tail := by
  simp only [commonLeaves, root_u64 H, root_b256 H, hash_forkData H, hash_header H, root_ids8192 H, root_idList H, hash_eth1Data H, root_list H (max := 2048) good_eth1Data rfl (hash_eth1Data H), show depthFor 2048 = 11 by decide, root_list H (max := 1099511627776) good_validator rfl (hash_validator H), show depthFor 1099511627776 = 40 by decide, root_balances H, root_ids65536 H, root_numbers H, root_participation H, root_fourBits H, hash_checkpoint H, hash_syncCommittee H]
  rfl

end Verif.BeaconState
