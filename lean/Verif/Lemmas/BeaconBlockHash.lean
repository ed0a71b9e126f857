import Verif.Lemmas.BeaconBlock
import Verif.Props.BeaconBlockSpec

/-! The hashes of beacon blocks are those of the trees of the specification. -/

namespace Verif.BeaconBlock
open Verif.Ssz Verif.TreeHash Verif.Props.BeaconBlockSpec
open Verif.SszT hiding u256 byteList list varList vector
open Verif.LightClient (Header chunk)
open Verif.HeaderValidator (Fork depthFor depthFor_le leNode)
open Verif.Merkle (listRoot)

variable (H : Id → Id → Id)

theorem struct_root {α β} {r : Fields α} (hr : FieldsGood r) (f : α → β) (g : β → α) (x : β) :
    ((struct r f g).tree x).root H = listRoot H (depthFor r.ssz.fields.length) ((r.trees (g x)).map (HTree.root H)) :=
  root_ofLeaves H _ _ (by rw [hr.binding.len]; exact depthFor_le _)

theorem chunk_eq (c : Bytes) (h : c.length ≤ 32) :
    chunk c = BitVec.ofNat 256 (fromBe ((List.range 32).map fun j => c.getD j 0)) := by
  unfold chunk
  congr 2
  apply List.ext_getElem?
  intro i
  by_cases h1 : i < c.length
  · simp [List.getElem?_append_left h1, List.getElem?_range (show i < 32 by omega), List.getElem?_eq_getElem h1]
  · rw [List.getElem?_append_right (by omega)]
    by_cases h2 : i < 32
    · simp [List.getElem?_replicate, List.getElem?_range h2, List.getElem?_eq_none (show c.length ≤ i by omega),
        show i - c.length < 32 - c.length by omega]
    · simp [List.getElem?_replicate, show ¬ i - c.length < 32 - c.length by omega,
        List.getElem?_eq_none (show (List.range 32).length ≤ i by simp; omega)]

def wordAt (bs : Bytes) (i : Nat) : Id :=
  BitVec.ofNat 256 (fromBe ((List.range 32).map fun j => bs.getD (32 * i + j) 0))

theorem wordAt_zero (bs : Bytes) : chunk (bs.take 32) = wordAt bs 0 := by
  rw [chunk_eq _ (by simp; omega)]
  unfold wordAt
  refine congrArg (fun l => BitVec.ofNat 256 (fromBe l)) (List.map_congr_left fun j hj => ?_)
  have : j < 32 := List.mem_range.mp hj
  simp [List.getD_eq_getElem?_getD, List.getElem?_take, this]

theorem wordAt_succ (bs : Bytes) (i : Nat) : wordAt (bs.drop 32) i = wordAt bs (i + 1) := by
  unfold wordAt
  refine congrArg (fun l => BitVec.ofNat 256 (fromBe l)) (List.map_congr_left fun j _ => ?_)
  simp only [List.getD_eq_getElem?_getD, List.getElem?_drop]
  rw [show 32 + (32 * i + j) = 32 * (i + 1) + j by omega]

theorem chunks_eq : ∀ (k : Nat) (bs : Bytes), (chunks 32 k bs).map chunk = (List.range k).map (wordAt bs)
  | 0, _ => rfl
  | k + 1, bs => by
    rw [List.range_succ_eq_map (n := k), chunks, List.map_cons, List.map_cons, chunks_eq k, List.map_map, wordAt_zero]
    exact congrArg _ (List.map_congr_left fun i _ => wordAt_succ bs i)

theorem byteLeaves_words (bs : Bytes) : (byteLeaves bs).map (HTree.root H) = words bs := by
  rw [byteLeaves, List.map_map]
  exact chunks_eq _ bs

theorem root_u64 (x : UInt64) : (TreeHash.u64.tree x).root H = num x.toNat := rfl
theorem root_u256 (x : BitVec 256) : (TreeHash.u256.tree x).root H = num x.toNat := rfl
theorem root_b256 (x : Id) : (b256.tree x).root H = x := rfl
theorem root_bytes {n d : Nat} (hd : depthFor ((n + 31) / 32) = d) (x : BytesN n) :
    ((bytes n).tree x).root H = tree H d (words x.1) := by
  subst hd
  simp only [bytes]
  rw [root_ofLeaves H _ _ (by rw [byteLeaves_length, x.2]; exact depthFor_le _), byteLeaves_words]; rfl
theorem root_bytes8 (x : BytesN 8) : ((bytes 8).tree x).root H = short H x.1 := root_bytes H (by decide) x
theorem root_bytes20 (x : BytesN 20) : ((bytes 20).tree x).root H = short H x.1 := root_bytes H (by decide) x
theorem root_bytes48 (x : BytesN 48) : ((bytes 48).tree x).root H = key H x.1 := root_bytes H (by decide) x
theorem root_bytes64 (x : BytesN 64) : ((bytes 64).tree x).root H = tree H 1 (words x.1) := root_bytes H (by decide) x
theorem root_bytes96 (x : BytesN 96) : ((bytes 96).tree x).root H = sig H x.1 := root_bytes H (by decide) x
theorem root_bytes256 (x : BytesN 256) : ((bytes 256).tree x).root H = tree H 3 (words x.1) := root_bytes H (by decide) x

theorem root_withLength (t : HTree) (n : Nat) : (withLength t n).root H = H (t.root H) (num n) := rfl

theorem root_byteList {n d : Nat} (hd : depthFor ((n + 31) / 32) = d) (x : BList UInt8 n) :
    ((byteList n).tree x).root H = H (tree H d (words x.1)) (num x.1.length) := by
  subst hd
  have hx := x.2
  simp only [byteList, root_withLength]
  rw [root_ofLeaves H _ _ (by rw [byteLeaves_length]; exact depth_le (by omega)), byteLeaves_words]; rfl
theorem root_extra (x : BList UInt8 32) : ((byteList 32).tree x).root H = extraHash H x.1 := root_byteList H (by decide) x

theorem bitsToNat_foldr (l : List Bool) : bitsToNat l = l.foldr (fun b n => (if b then 1 else 0) + 2 * n) 0 := by
  induction l with
  | nil => rfl
  | cons b l ih => simp [bitsToNat, ih]

theorem words_zero : words [0] = [0] := by decide

theorem root_bits {n d : Nat} (hd : depthFor (((n + 7) / 8 + 31) / 32) = d) (x : BList Bool n) :
    ((bitlist n).tree x).root H = bitsHash H d x.1 := by
  subst hd
  have hx := x.2
  simp only [bitlist, root_withLength, bitsHash]
  rw [root_ofLeaves H _ _ ?_, byteLeaves_words, bitsToNat_foldr]
  · generalize depthFor _ = d
    refine congrArg (fun y => H y _) ?_
    cases hl : x.1 with
    | nil =>
      show listRoot H d (words [0]) = listRoot H d (words [])
      rw [words_zero]
      apply Merkle.treeRoot_congr
      intro i _
      cases i <;> simp [words]
    | cons b l => rfl
  · rw [byteLeaves_length, toLe_length]
    split
    · exact Nat.succ_le_of_lt (Nat.pow_pos (by decide))
    · exact depth_le (by omega)
theorem root_bits2048 (x : BList Bool 2048) : ((bitlist 2048).tree x).root H = bitsHash H 3 x.1 := root_bits H (by decide) x
theorem root_bits131072 (x : BList Bool 131072) : ((bitlist 131072).tree x).root H = bitsHash H 9 x.1 :=
  root_bits H (by decide) x

theorem root_listTree {α} {max : Nat} {t : Ty α} (ht : Good t) (hb : t.basic = false) {each : α → Id}
    (he : ∀ x, (t.tree x).root H = each x) (x : BList α max) :
    (listTree t max x).root H = listOf H (depthFor max) each x.1 := by
  have hx := x.2
  have hc : leafCount t max = max := by simp [leafCount, hb]
  simp only [listTree, root_withLength, listOf]
  rw [root_ofLeaves H _ _ (depth_le (leafCount_fits ht.binding rfl x.2)), hc]
  congr 1
  simp only [seqLeaves, hb, Bool.false_eq_true, if_false, List.map_map]
  show listRoot H _ (List.map (fun x => (t.tree x).root H) x.1) = _
  simp only [he]; rfl
theorem root_list {α} {max : Nat} {t : Ty α} (ht : Good t) (hb : t.basic = false) {each : α → Id}
    (he : ∀ x, (t.tree x).root H = each x) (x : BList α max) :
    ((list t max).tree x).root H = listOf H (depthFor max) each x.1 := root_listTree H ht hb he x
theorem root_varList {α} {max : Nat} {t : Ty α} (ht : Good t) (hb : t.basic = false) {each : α → Id}
    (he : ∀ x, (t.tree x).root H = each x) (x : BList α max) :
    ((varList t max).tree x).root H = listOf H (depthFor max) each x.1 := root_listTree H ht hb he x

theorem root_indices {max d : Nat} (_hm : max < 2 ^ 256) (hd : depthFor ((max + 3) / 4) = d) (x : BList UInt64 max) :
    ((list TreeHash.u64 max).tree x).root H = indicesHash H d x.1 := by
  subst hd
  show (listTree TreeHash.u64 max x).root H = _
  simp only [listTree, root_withLength, indicesHash]
  rw [root_ofLeaves H _ _ (depth_le (leafCount_fits binding_u64 rfl x.2))]
  have : (seqLeaves TreeHash.u64 x.1).map (HTree.root H) = words (row le8 x.1) := by
    show (byteLeaves _).map _ = _
    rw [byteLeaves_words]; rfl
  rw [this]; rfl

theorem root_proof (x : Vec Id 33) : ((vector b256 33).tree x).root H = tree H 6 x.1 := by
  simp only [vector]
  rw [root_ofLeaves H _ _ (depth_le (leafCount_fits binding_b256 x.2 (Nat.le_refl 33)))]
  show listRoot H 6 (List.map _ (List.map _ x.1)) = _
  rw [List.map_map]
  show listRoot H 6 (List.map (fun y => y) x.1) = _
  rw [List.map_id']; rfl

theorem hash_transactions (x : Transactions) : (transactions.tree x).root H = transactionsHash H x :=
  root_varList H (max := 1048576) (good_byteList (by decide)) rfl (each := fun t => transactionHash H t.1)
    (fun t => root_byteList H (by decide) t) x

theorem hash_header (x : _) : (header.tree x).root H = headerHash H x := by
  rw [header, struct_root H (good_cons good_u64 <| good_cons good_u64 <| good_cons good_b256 <| good_cons good_b256 <| good_cons good_b256 good_nil)]
  simp only [Fields.cons, Fields.nil, List.map_cons, List.map_nil, root_u64 H, root_b256 H]
  rfl

theorem hash_syncAggregate (x : _) : (syncAggregate.tree x).root H = syncAggregateHash H x := by
  rw [syncAggregate, struct_root H (good_cons (good_bytes 64) <| good_cons (good_bytes 96) good_nil)]
  simp only [Fields.cons, Fields.nil, List.map_cons, List.map_nil, root_bytes64 H, root_bytes96 H]
  rfl

theorem hash_eth1Data (x : _) : (eth1Data.tree x).root H = eth1DataHash H x := by
  rw [eth1Data, struct_root H (good_cons good_b256 <| good_cons good_u64 <| good_cons good_b256 good_nil)]
  simp only [Fields.cons, Fields.nil, List.map_cons, List.map_nil, root_b256 H, root_u64 H]
  rfl

theorem hash_signedHeader (x : _) : (signedHeader.tree x).root H = signedHeaderHash H x := by
  rw [signedHeader, struct_root H (good_cons good_header <| good_cons (good_bytes 96) good_nil)]
  simp only [Fields.cons, Fields.nil, List.map_cons, List.map_nil, hash_header H, root_bytes96 H]
  rfl

theorem hash_proposerSlashing (x : _) : (proposerSlashing.tree x).root H = proposerSlashingHash H x := by
  rw [proposerSlashing, struct_root H (good_cons good_signedHeader <| good_cons good_signedHeader good_nil)]
  simp only [Fields.cons, Fields.nil, List.map_cons, List.map_nil, hash_signedHeader H]
  rfl

theorem hash_checkpoint (x : _) : (checkpoint.tree x).root H = checkpointHash H x := by
  rw [checkpoint, struct_root H (good_cons good_u64 <| good_cons good_b256 good_nil)]
  simp only [Fields.cons, Fields.nil, List.map_cons, List.map_nil, root_u64 H, root_b256 H]
  rfl

theorem hash_attestationData (x : _) : (attestationData.tree x).root H = attestationDataHash H x := by
  rw [attestationData, struct_root H (good_cons good_u64 <| good_cons good_u64 <| good_cons good_b256 <| good_cons good_checkpoint <| good_cons good_checkpoint good_nil)]
  simp only [Fields.cons, Fields.nil, List.map_cons, List.map_nil, root_u64 H, root_b256 H, hash_checkpoint H]
  rfl

theorem hash_indexedAttestation {max d : Nat} (hm : max < 2 ^ 256) (hd : depthFor ((max + 3) / 4) = d) (x : _) : ((indexedAttestation max).tree x).root H = indexedAttestationHash H d x := by
  rw [indexedAttestation, struct_root H (good_cons (good_list good_u64 (by decide) rfl hm) <| good_cons good_attestationData <| good_cons (good_bytes 96) good_nil)]
  simp only [Fields.cons, Fields.nil, List.map_cons, List.map_nil, root_indices H hm hd, hash_attestationData H, root_bytes96 H]
  simp only [Rec.cons, Rec.nil, List.length_cons, List.length_nil, indexedAttestationHash]
  rfl

theorem hash_attesterSlashing {max d : Nat} (hm : max < 2 ^ 256) (hd : depthFor ((max + 3) / 4) = d) (x : _) : ((attesterSlashing max).tree x).root H = attesterSlashingHash H d x := by
  rw [attesterSlashing, struct_root H (good_cons (good_indexedAttestation hm) <| good_cons (good_indexedAttestation hm) good_nil)]
  simp only [Fields.cons, Fields.nil, List.map_cons, List.map_nil, hash_indexedAttestation H hm hd]
  simp only [Rec.cons, Rec.nil, List.length_cons, List.length_nil, attesterSlashingHash]
  rfl

theorem hash_attestationBase (x : _) : (attestationBase.tree x).root H = attestationBaseHash H x := by
  rw [attestationBase, struct_root H (good_cons (good_bitlist (by decide)) <| good_cons good_attestationData <| good_cons (good_bytes 96) good_nil)]
  simp only [Fields.cons, Fields.nil, List.map_cons, List.map_nil, root_bits2048 H, hash_attestationData H, root_bytes96 H]
  rfl

theorem hash_attestationElectra (x : _) : (attestationElectra.tree x).root H = attestationElectraHash H x := by
  rw [attestationElectra, struct_root H (good_cons (good_bitlist (by decide)) <| good_cons good_attestationData <| good_cons (good_bytes 96) <| good_cons (good_bytes 8) good_nil)]
  simp only [Fields.cons, Fields.nil, List.map_cons, List.map_nil, root_bits131072 H, hash_attestationData H, root_bytes96 H, root_bytes8 H]
  rfl

theorem hash_depositData (x : _) : (depositData.tree x).root H = depositDataHash H x := by
  rw [depositData, struct_root H (good_cons (good_bytes 48) <| good_cons good_b256 <| good_cons good_u64 <| good_cons (good_bytes 96) good_nil)]
  simp only [Fields.cons, Fields.nil, List.map_cons, List.map_nil, root_bytes48 H, root_b256 H, root_u64 H, root_bytes96 H]
  rfl

theorem hash_deposit (x : _) : (deposit.tree x).root H = depositHash H x := by
  rw [deposit, struct_root H (good_cons (good_vector good_b256 rfl 33) <| good_cons good_depositData good_nil)]
  simp only [Fields.cons, Fields.nil, List.map_cons, List.map_nil, root_proof H, hash_depositData H]
  rfl

theorem hash_voluntaryExit (x : _) : (voluntaryExit.tree x).root H = voluntaryExitHash H x := by
  rw [voluntaryExit, struct_root H (good_cons good_u64 <| good_cons good_u64 good_nil)]
  simp only [Fields.cons, Fields.nil, List.map_cons, List.map_nil, root_u64 H]
  rfl

theorem hash_signedVoluntaryExit (x : _) : (signedVoluntaryExit.tree x).root H = signedVoluntaryExitHash H x := by
  rw [signedVoluntaryExit, struct_root H (good_cons good_voluntaryExit <| good_cons (good_bytes 96) good_nil)]
  simp only [Fields.cons, Fields.nil, List.map_cons, List.map_nil, hash_voluntaryExit H, root_bytes96 H]
  rfl

theorem hash_blsChange (x : _) : (blsChange.tree x).root H = blsChangeHash H x := by
  rw [blsChange, struct_root H (good_cons good_u64 <| good_cons (good_bytes 48) <| good_cons (good_bytes 20) good_nil)]
  simp only [Fields.cons, Fields.nil, List.map_cons, List.map_nil, root_u64 H, root_bytes48 H, root_bytes20 H]
  rfl

theorem hash_signedBlsChange (x : _) : (signedBlsChange.tree x).root H = signedBlsChangeHash H x := by
  rw [signedBlsChange, struct_root H (good_cons good_blsChange <| good_cons (good_bytes 96) good_nil)]
  simp only [Fields.cons, Fields.nil, List.map_cons, List.map_nil, hash_blsChange H, root_bytes96 H]
  rfl

theorem hash_withdrawal (x : _) : (withdrawal.tree x).root H = withdrawalHash H x := by
  rw [withdrawal, struct_root H (good_cons good_u64 <| good_cons good_u64 <| good_cons (good_bytes 20) <| good_cons good_u64 good_nil)]
  simp only [Fields.cons, Fields.nil, List.map_cons, List.map_nil, root_u64 H, root_bytes20 H]
  rfl

theorem hash_depositRequest (x : _) : (depositRequest.tree x).root H = depositRequestHash H x := by
  rw [depositRequest, struct_root H (good_cons (good_bytes 48) <| good_cons good_b256 <| good_cons good_u64 <| good_cons (good_bytes 96) <| good_cons good_u64 good_nil)]
  simp only [Fields.cons, Fields.nil, List.map_cons, List.map_nil, root_bytes48 H, root_b256 H, root_u64 H, root_bytes96 H]
  rfl

theorem hash_withdrawalRequest (x : _) : (withdrawalRequest.tree x).root H = withdrawalRequestHash H x := by
  rw [withdrawalRequest, struct_root H (good_cons (good_bytes 20) <| good_cons (good_bytes 48) <| good_cons good_u64 good_nil)]
  simp only [Fields.cons, Fields.nil, List.map_cons, List.map_nil, root_bytes20 H, root_bytes48 H, root_u64 H]
  rfl

theorem hash_consolidationRequest (x : _) : (consolidationRequest.tree x).root H = consolidationRequestHash H x := by
  rw [consolidationRequest, struct_root H (good_cons (good_bytes 20) <| good_cons (good_bytes 48) <| good_cons (good_bytes 48) good_nil)]
  simp only [Fields.cons, Fields.nil, List.map_cons, List.map_nil, root_bytes20 H, root_bytes48 H]
  rfl

theorem hash_executionRequests (x : _) : (executionRequests.tree x).root H = executionRequestsHash H x := by
  rw [executionRequests, struct_root H (good_cons (good_list good_depositRequest (by decide) rfl (by decide)) <| good_cons (good_list good_withdrawalRequest (by decide) rfl (by decide)) <| good_cons (good_list good_consolidationRequest (by decide) rfl (by decide)) good_nil)]
  simp only [Fields.cons, Fields.nil, List.map_cons, List.map_nil, root_list H (max := 8192) good_depositRequest rfl (hash_depositRequest H), root_list H (max := 16) good_withdrawalRequest rfl (hash_withdrawalRequest H), root_list H (max := 2) good_consolidationRequest rfl (hash_consolidationRequest H)]
  rfl

theorem hash_payloadBellatrix (x : _) : (payloadBellatrix.tree x).root H =
    tree H 4 ((payloadBellatrixBefore H x).toList ++ x.blockHash :: (payloadBellatrixAfter H x).toList) := by
  rw [payloadBellatrix, struct_root H (good_cons good_b256 <| good_cons (good_bytes 20) <| good_cons good_b256 <| good_cons good_b256 <| good_cons (good_bytes 256) <| good_cons good_b256 <| good_cons good_u64 <| good_cons good_u64 <| good_cons good_u64 <| good_cons good_u64 <| good_cons (good_byteList (by decide)) <| good_cons good_u256 <| good_cons good_b256 <| good_cons good_transactions good_nil)]
  simp only [Fields.cons, Fields.nil, List.map_cons, List.map_nil, root_b256 H, root_bytes20 H, root_bytes256 H, root_u64 H, root_extra H, root_u256 H, hash_transactions H]
  rfl

theorem hash_payloadCapella (x : _) : (payloadCapella.tree x).root H =
    tree H 4 ((payloadCapellaBefore H x).toList ++ x.blockHash :: (payloadCapellaAfter H x).toList) := by
  rw [payloadCapella, struct_root H (good_cons good_b256 <| good_cons (good_bytes 20) <| good_cons good_b256 <| good_cons good_b256 <| good_cons (good_bytes 256) <| good_cons good_b256 <| good_cons good_u64 <| good_cons good_u64 <| good_cons good_u64 <| good_cons good_u64 <| good_cons (good_byteList (by decide)) <| good_cons good_u256 <| good_cons good_b256 <| good_cons good_transactions <| good_cons (good_list good_withdrawal (by decide) rfl (by decide)) good_nil)]
  simp only [Fields.cons, Fields.nil, List.map_cons, List.map_nil, root_b256 H, root_bytes20 H, root_bytes256 H, root_u64 H, root_extra H, root_u256 H, hash_transactions H, root_list H (max := 16) good_withdrawal rfl (hash_withdrawal H)]
  rfl

theorem hash_payloadDeneb (x : _) : (payloadDeneb.tree x).root H =
    tree H 5 ((payloadDenebBefore H x).toList ++ x.blockHash :: (payloadDenebAfter H x).toList) := by
  rw [payloadDeneb, struct_root H (good_cons good_b256 <| good_cons (good_bytes 20) <| good_cons good_b256 <| good_cons good_b256 <| good_cons (good_bytes 256) <| good_cons good_b256 <| good_cons good_u64 <| good_cons good_u64 <| good_cons good_u64 <| good_cons good_u64 <| good_cons (good_byteList (by decide)) <| good_cons good_u256 <| good_cons good_b256 <| good_cons good_transactions <| good_cons (good_list good_withdrawal (by decide) rfl (by decide)) <| good_cons good_u64 <| good_cons good_u64 good_nil)]
  simp only [Fields.cons, Fields.nil, List.map_cons, List.map_nil, root_b256 H, root_bytes20 H, root_bytes256 H, root_u64 H, root_extra H, root_u256 H, hash_transactions H, root_list H (max := 16) good_withdrawal rfl (hash_withdrawal H)]
  rfl

theorem hash_bodyBellatrix (x : _) : (bodyBellatrix.tree x).root H =
    tree H 4 ((bodyBellatrixBefore H x).toList ++ tree H 4 ((payloadBellatrixBefore H x.executionPayload).toList ++
      x.executionPayload.blockHash :: (payloadBellatrixAfter H x.executionPayload).toList) :: []) := by
  rw [bodyBellatrix, struct_root H (good_cons (good_bytes 96) <| good_cons good_eth1Data <| good_cons good_b256 <| good_cons (good_list good_proposerSlashing (by decide) rfl (by decide)) <| good_cons (good_varList (good_attesterSlashing (by decide)) (by decide)) <| good_cons (good_varList good_attestationBase (by decide)) <| good_cons (good_list good_deposit (by decide) rfl (by decide)) <| good_cons (good_list good_signedVoluntaryExit (by decide) rfl (by decide)) <| good_cons good_syncAggregate <| good_cons good_payloadBellatrix good_nil)]
  simp only [Fields.cons, Fields.nil, List.map_cons, List.map_nil, root_bytes96 H, hash_eth1Data H, root_b256 H, root_list H (max := 16) good_proposerSlashing rfl (hash_proposerSlashing H), root_varList H (max := 2) (good_attesterSlashing (max := 2048) (by decide)) rfl (hash_attesterSlashing H (max := 2048) (d := 9) (by decide) (by decide)), root_varList H (max := 128) good_attestationBase rfl (hash_attestationBase H), root_list H (max := 16) good_deposit rfl (hash_deposit H), root_list H (max := 16) good_signedVoluntaryExit rfl (hash_signedVoluntaryExit H), hash_syncAggregate H, hash_payloadBellatrix H]
  rfl

theorem hash_bodyCapella (x : _) : (bodyCapella.tree x).root H =
    tree H 4 ((bodyCapellaBefore H x).toList ++ tree H 4 ((payloadCapellaBefore H x.executionPayload).toList ++
      x.executionPayload.blockHash :: (payloadCapellaAfter H x.executionPayload).toList) :: (bodyCapellaAfter H x).toList) := by
  rw [bodyCapella, struct_root H (good_cons (good_bytes 96) <| good_cons good_eth1Data <| good_cons good_b256 <| good_cons (good_list good_proposerSlashing (by decide) rfl (by decide)) <| good_cons (good_varList (good_attesterSlashing (by decide)) (by decide)) <| good_cons (good_varList good_attestationBase (by decide)) <| good_cons (good_list good_deposit (by decide) rfl (by decide)) <| good_cons (good_list good_signedVoluntaryExit (by decide) rfl (by decide)) <| good_cons good_syncAggregate <| good_cons good_payloadCapella <| good_cons (good_list good_signedBlsChange (by decide) rfl (by decide)) good_nil)]
  simp only [Fields.cons, Fields.nil, List.map_cons, List.map_nil, root_bytes96 H, hash_eth1Data H, root_b256 H, root_list H (max := 16) good_proposerSlashing rfl (hash_proposerSlashing H), root_varList H (max := 2) (good_attesterSlashing (max := 2048) (by decide)) rfl (hash_attesterSlashing H (max := 2048) (d := 9) (by decide) (by decide)), root_varList H (max := 128) good_attestationBase rfl (hash_attestationBase H), root_list H (max := 16) good_deposit rfl (hash_deposit H), root_list H (max := 16) good_signedVoluntaryExit rfl (hash_signedVoluntaryExit H), hash_syncAggregate H, hash_payloadCapella H, root_list H (max := 16) good_signedBlsChange rfl (hash_signedBlsChange H)]
  rfl

theorem hash_bodyDeneb (x : _) : (bodyDeneb.tree x).root H =
    tree H 4 ((bodyDenebBefore H x).toList ++ tree H 5 ((payloadDenebBefore H x.executionPayload).toList ++
      x.executionPayload.blockHash :: (payloadDenebAfter H x.executionPayload).toList) :: (bodyDenebAfter H x).toList) := by
  rw [bodyDeneb, struct_root H (good_cons (good_bytes 96) <| good_cons good_eth1Data <| good_cons good_b256 <| good_cons (good_list good_proposerSlashing (by decide) rfl (by decide)) <| good_cons (good_varList (good_attesterSlashing (by decide)) (by decide)) <| good_cons (good_varList good_attestationBase (by decide)) <| good_cons (good_list good_deposit (by decide) rfl (by decide)) <| good_cons (good_list good_signedVoluntaryExit (by decide) rfl (by decide)) <| good_cons good_syncAggregate <| good_cons good_payloadDeneb <| good_cons (good_list good_signedBlsChange (by decide) rfl (by decide)) <| good_cons (good_list (good_bytes 48) (by decide) rfl (by decide)) good_nil)]
  simp only [Fields.cons, Fields.nil, List.map_cons, List.map_nil, root_bytes96 H, hash_eth1Data H, root_b256 H, root_list H (max := 16) good_proposerSlashing rfl (hash_proposerSlashing H), root_varList H (max := 2) (good_attesterSlashing (max := 2048) (by decide)) rfl (hash_attesterSlashing H (max := 2048) (d := 9) (by decide) (by decide)), root_varList H (max := 128) good_attestationBase rfl (hash_attestationBase H), root_list H (max := 16) good_deposit rfl (hash_deposit H), root_list H (max := 16) good_signedVoluntaryExit rfl (hash_signedVoluntaryExit H), hash_syncAggregate H, hash_payloadDeneb H, root_list H (max := 16) good_signedBlsChange rfl (hash_signedBlsChange H), root_list H (max := 4096) (good_bytes 48) rfl (root_bytes48 H)]
  rfl

theorem hash_bodyElectra (x : _) : (bodyElectra.tree x).root H =
    tree H 4 ((bodyElectraBefore H x).toList ++ tree H 5 ((payloadDenebBefore H x.executionPayload).toList ++
      x.executionPayload.blockHash :: (payloadDenebAfter H x.executionPayload).toList) :: (bodyElectraAfter H x).toList) := by
  rw [bodyElectra, struct_root H (good_cons (good_bytes 96) <| good_cons good_eth1Data <| good_cons good_b256 <| good_cons (good_list good_proposerSlashing (by decide) rfl (by decide)) <| good_cons (good_varList (good_attesterSlashing (by decide)) (by decide)) <| good_cons (good_varList good_attestationElectra (by decide)) <| good_cons (good_list good_deposit (by decide) rfl (by decide)) <| good_cons (good_list good_signedVoluntaryExit (by decide) rfl (by decide)) <| good_cons good_syncAggregate <| good_cons good_payloadDeneb <| good_cons (good_list good_signedBlsChange (by decide) rfl (by decide)) <| good_cons (good_list (good_bytes 48) (by decide) rfl (by decide)) <| good_cons good_executionRequests good_nil)]
  simp only [Fields.cons, Fields.nil, List.map_cons, List.map_nil, root_bytes96 H, hash_eth1Data H, root_b256 H, root_list H (max := 16) good_proposerSlashing rfl (hash_proposerSlashing H), root_varList H (max := 1) (good_attesterSlashing (max := 131072) (by decide)) rfl (hash_attesterSlashing H (max := 131072) (d := 15) (by decide) (by decide)), root_varList H (max := 8) good_attestationElectra rfl (hash_attestationElectra H), root_list H (max := 16) good_deposit rfl (hash_deposit H), root_list H (max := 16) good_signedVoluntaryExit rfl (hash_signedVoluntaryExit H), hash_syncAggregate H, hash_payloadDeneb H, root_list H (max := 16) good_signedBlsChange rfl (hash_signedBlsChange H), root_list H (max := 4096) (good_bytes 48) rfl (root_bytes48 H), hash_executionRequests H]
  rfl

theorem hash_body : (f : Fork) → (b : Block f) → ((body f).tree b.body).root H = bodyHash H b
  | .bellatrix, b => hash_bodyBellatrix H b.body
  | .capella, b => hash_bodyCapella H b.body
  | .deneb, b => hash_bodyDeneb H b.body
  | .electra, b => hash_bodyElectra H b.body

theorem hash_block {f : Fork} (b : Block f) : AnyBlock.root H ⟨f, b⟩ = blockHash H b := by
  show ((block f).tree b).root H = _
  rw [block, struct_root H (good_cons good_u64 <| good_cons good_u64 <| good_cons good_b256 <| good_cons good_b256 <|
    good_cons (good_body f) good_nil)]
  simp only [Fields.cons, Fields.nil, List.map_cons, List.map_nil, root_u64, root_b256, hash_body H f]
  generalize hl : [num b.slot.toNat, num b.proposerIndex.toNat, b.parentRoot, b.stateRoot, bodyHash H b] = l
  rw [blockHash, hl]
  simp only [Rec.cons, Rec.nil, List.length_cons, List.length_nil, Nat.zero_add, Nat.reduceAdd]
  rw [show depthFor 5 = 3 by decide]; rfl

theorem containerRoot_eq (l : List Id) : HeaderValidator.containerRoot H l = tree H (depthFor l.length) l := rfl

theorem fields_root {f : Fork} (b : Block f) : (fields H f b).root H = blockHash H b := by
  have hd : depthFor (fields H f b).payloadLeaves.length = payloadDepth f := by
    rw [show (fields H f b).payloadLeaves.length = 13 + f.payloadRest by simp [HeaderValidator.Block.payloadLeaves]; omega]
    cases f <;> decide
  have hb : depthFor ((fields H f b).bodyLeaves H).length = 4 := by
    rw [show ((fields H f b).bodyLeaves H).length = 10 + f.bodyRest by simp [HeaderValidator.Block.bodyLeaves]; omega]
    cases f <;> decide
  have hh : (fields H f b).head.toList = [num b.slot.toNat, num b.proposerIndex.toNat, b.parentRoot, b.stateRoot] := by
    cases f <;> rfl
  have e : (fields H f b).bodyRoot H = bodyHash H b := by
    rw [HeaderValidator.Block.bodyRoot, containerRoot_eq, hb]
    simp only [HeaderValidator.Block.bodyLeaves, HeaderValidator.Block.payloadRoot, containerRoot_eq, hd, bodyHash]
    rfl
  rw [HeaderValidator.Block.root, containerRoot_eq, HeaderValidator.Block.blockLeaves, hh, e, List.cons_append, List.cons_append,
    List.cons_append, List.cons_append, List.nil_append]
  have : depthFor [num b.slot.toNat, num b.proposerIndex.toNat, b.parentRoot, b.stateRoot, bodyHash H b].length = 3 :=
    show depthFor 5 = 3 by decide
  rw [this, blockHash]

theorem fields_hash {f : Fork} (b : Block f) : (fields H f b).blockHash = (execution f b).2 := by cases f <;> rfl

end Verif.BeaconBlock
