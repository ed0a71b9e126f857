import Verif.Lemmas.BeaconValue
import Verif.Props.BeaconValueSpec

namespace Verif.BeaconValue
open Verif.Ssz Verif.SszT Verif.ContentKey
open Verif.Props
open Verif.LightClient (Header)

theorem header_format (h : Header) : headerCodec.enc h = BeaconFormat.header h := by
  simp [headerCodec, container, Rec.cons, Rec.nil, encodeContainer, fixedPart, varPart, u64, ContentKey.hash,
    BeaconFormat.header, BeaconFormat.num]

theorem execCapella_format (x : ExecCapella) : execCapellaCodec.enc x = BeaconFormat.execCapella x := by
  simp [execCapellaCodec, container, Rec.cons, Rec.nil, encodeContainer, fixedPart, varPart, u64, ContentKey.hash,
    bytesN, byteList, u256, headLen, Field.headLen, BeaconFormat.execCapella, BeaconFormat.num,
    BeaconFormat.offset]

theorem execDeneb_format (x : ExecDeneb) : execDenebCodec.enc x = BeaconFormat.execDeneb x := by
  simp [execDenebCodec, container, Rec.cons, Rec.nil, encodeContainer, fixedPart, varPart, u64, ContentKey.hash,
    bytesN, byteList, u256, headLen, Field.headLen, BeaconFormat.execDeneb, BeaconFormat.num,
    BeaconFormat.offset]

theorem hashes_format {n : Nat} (v : Vec Id n) : (vector hash n).enc v = BeaconFormat.roots v.1 := rfl
theorem hashes_field (n : Nat) : (vector hash n).field = .fixed (32 * n) := rfl

theorem header_field : headerCodec.field = .fixed 112 := by decide
theorem execCapella_field : execCapellaCodec.field = .var := by decide
theorem execDeneb_field : execDenebCodec.field = .var := by decide
theorem committee_field : syncCommitteeCodec.field = .fixed 24624 := by decide
theorem aggregate_field : syncAggregateCodec.field = .fixed 160 := by decide
theorem summary_field : summaryCodec.field = .fixed 64 := by decide
theorem lcHeader_field : ∀ f, (lcHeaderCodec f).field = if f = .bellatrix then .fixed 112 else .var := by
  intro f; cases f <;> decide

theorem lcHeader_format : ∀ f (x : LcHeader f), (lcHeaderCodec f).enc x = BeaconFormat.lcHeader f x := by
  intro f x
  cases f <;>
  simp [lcHeaderCodec, container, Rec.cons, Rec.nil, encodeContainer, fixedPart, varPart, headLen,
    Field.headLen, header_field, execCapella_field, execDeneb_field, hashes_field, header_format,
    execCapella_format, execDeneb_format, hashes_format, BeaconFormat.lcHeader, BeaconFormat.offset]

theorem committee_format (c : SyncCommittee) : syncCommitteeCodec.enc c = BeaconFormat.committee c := by
  show ((c.pubkeys.1.map (·.1)).flatten ++ (c.aggregatePubkey.1 ++ [])) ++ [] = _
  rw [List.append_nil, List.append_nil]
  rfl

theorem aggregate_format (a : SyncAggregate) : syncAggregateCodec.enc a = BeaconFormat.aggregate a := by
  simp [syncAggregateCodec, container, Rec.cons, Rec.nil, encodeContainer, fixedPart, varPart,
    bytesN, BeaconFormat.aggregate]

theorem bootstrap_format : ∀ f (x : Bootstrap f), (bootstrapCodec f).enc x = BeaconFormat.bootstrap f x := by
  intro f x
  cases f <;>
  simp [bootstrapCodec, container, Rec.cons, Rec.nil, encodeContainer, fixedPart, varPart, headLen,
    Field.headLen, lcHeader_field, committee_field, hashes_field, lcHeader_format, committee_format,
    hashes_format, BeaconFormat.bootstrap, BeaconFormat.offset, committeeBranchLen]

theorem update_format : ∀ f (x : Update f), (updateCodec f).enc x = BeaconFormat.update f x := by
  intro f x
  cases f <;>
  simp [updateCodec, container, Rec.cons, Rec.nil, encodeContainer, fixedPart, varPart, headLen,
    Field.headLen, lcHeader_field, committee_field, hashes_field, aggregate_field, aggregate_format,
    lcHeader_format, committee_format, u64,
    hashes_format, BeaconFormat.update, BeaconFormat.updateWith, BeaconFormat.offset, BeaconFormat.num,
    committeeBranchLen, finalityBranchLen]

theorem finality_format : ∀ f (x : FinalityUpdate f),
    (finalityCodec f).enc x = BeaconFormat.finality f x := by
  intro f x
  cases f <;>
  simp [finalityCodec, container, Rec.cons, Rec.nil, encodeContainer, fixedPart, varPart, headLen,
    Field.headLen, lcHeader_field, hashes_field, aggregate_field, aggregate_format,
    lcHeader_format, u64,
    hashes_format, BeaconFormat.finality, BeaconFormat.finalityWith, BeaconFormat.offset, BeaconFormat.num,
    finalityBranchLen]

theorem optimistic_format : ∀ f (x : OptimisticUpdate f),
    (optimisticCodec f).enc x = BeaconFormat.optimistic f x := by
  intro f x
  cases f <;>
  simp [optimisticCodec, container, Rec.cons, Rec.nil, encodeContainer, fixedPart, varPart, headLen,
    Field.headLen, lcHeader_field, aggregate_field, aggregate_format,
    lcHeader_format, u64, BeaconFormat.optimistic, BeaconFormat.offset, BeaconFormat.num]

theorem summary_format (x : Summary) : summaryCodec.enc x = x.blockRoot.bytes ++ x.stateRoot.bytes := by
  simp [summaryCodec, container, Rec.cons, Rec.nil, encodeContainer, fixedPart, varPart, ContentKey.hash]

theorem summaries_format (s : Summaries) : summariesCodec.enc s = BeaconFormat.summaries s := by
  have : summaryCodec.enc = fun x => x.blockRoot.bytes ++ x.stateRoot.bytes := funext summary_format
  simp only [summariesCodec, container, Rec.cons, Rec.nil, encodeContainer, fixedPart, varPart, headLen,
    Field.headLen, hashes_field, hashes_format, list, encodeFixedList, this, u64, BeaconFormat.summaries,
    BeaconFormat.num, BeaconFormat.offset]
  simp

theorem digest_format (f : Fork) : f.digest = BeaconFormat.digest f := by cases f <;> rfl

theorem list_format (items : List Bytes) : encodeVarList items = BeaconFormat.list items := by
  have h1 : ∀ (l : List Bytes) (o : Nat), fixedPart (l.map fun _ => Field.var) l o = BeaconFormat.offsets o l := by
    intro l
    induction l with
    | nil => intro o; rfl
    | cons b l ih => intro o; simp only [List.map_cons, fixedPart, BeaconFormat.offsets, ih, BeaconFormat.offset]
  have h2 : ∀ (l : List Bytes), varPart (l.map fun _ => Field.var) l = l.flatten := by
    intro l
    induction l with
    | nil => rfl
    | cons b l ih => simp only [List.map_cons, varPart, ih, List.flatten_cons]
  unfold encodeVarList encodeContainer BeaconFormat.list
  rw [h1, h2, map_var_eq_replicate, headLen_replicate_var]

theorem value_format (v : Value) : v.encode = BeaconFormat.value v := by
  cases v with
  | summaries f s => simp only [Value.encode, BeaconFormat.value, digest_format, summaries_format]
  | bootstrap v => simp only [Value.encode, encodeVersioned, BeaconFormat.value, digest_format, bootstrap_format]
  | updates l =>
    have : encodeVersioned updateCodec = fun v => BeaconFormat.digest v.1 ++ BeaconFormat.update v.1 v.2 := by
      funext v; simp only [encodeVersioned, digest_format, update_format]
    simp only [Value.encode, this, list_format, BeaconFormat.value]
  | optimistic v => simp only [Value.encode, encodeVersioned, BeaconFormat.value, digest_format, optimistic_format]
  | finality v => simp only [Value.encode, encodeVersioned, BeaconFormat.value, digest_format, finality_format]

/-! sizes -/

theorem roots_length (l : List Id) : (BeaconFormat.roots l).length = 32 * l.length := by
  unfold BeaconFormat.roots
  rw [flatten_length 32 _ (by
    intro v hv
    obtain ⟨x, _, rfl⟩ := List.mem_map.mp hv
    simp [Id.bytes]), List.length_map]

theorem bytes_length (x : Id) : x.bytes.length = 32 := by simp [Id.bytes]

theorem header_length (h : Header) : (BeaconFormat.header h).length = 112 := by
  rw [← header_format]; exact sound_header.fixed h _ header_field

theorem execCapella_length (x : ExecCapella) : (BeaconFormat.execCapella x).length ≤ 600 := by
  have := x.extraData.2
  have h1 := x.feeRecipient.2
  have h2 := x.logsBloom.2
  simp only [BeaconFormat.execCapella, BeaconFormat.offset, BeaconFormat.num, List.length_append,
    toLe_length, bytes_length]
  omega

theorem execDeneb_length (x : ExecDeneb) : (BeaconFormat.execDeneb x).length ≤ 616 := by
  have := x.extraData.2
  have h1 := x.feeRecipient.2
  have h2 := x.logsBloom.2
  simp only [BeaconFormat.execDeneb, BeaconFormat.offset, BeaconFormat.num, List.length_append,
    toLe_length, bytes_length]
  omega

theorem roots4_length (v : Vec Id 4) : (BeaconFormat.roots v.1).length = 128 := by
  rw [roots_length, v.2]

theorem lcHeader_length (f : Fork) (x : LcHeader f) : (BeaconFormat.lcHeader f x).length ≤ 860 := by
  have hh := header_length x.beacon
  cases f with
  | bellatrix => simp only [BeaconFormat.lcHeader]; omega
  | capella =>
    have h1 := roots4_length x.exec.2
    have h2 := execCapella_length x.exec.1
    simp only [BeaconFormat.lcHeader, BeaconFormat.offset, List.length_append, toLe_length]
    omega
  | deneb =>
    have h1 := roots4_length x.exec.2
    have h2 := execDeneb_length x.exec.1
    simp only [BeaconFormat.lcHeader, BeaconFormat.offset, List.length_append, toLe_length]
    omega
  | electra =>
    have h1 := roots4_length x.exec.2
    have h2 := execDeneb_length x.exec.1
    simp only [BeaconFormat.lcHeader, BeaconFormat.offset, List.length_append, toLe_length]
    omega

theorem committee_length (c : SyncCommittee) : (BeaconFormat.committee c).length = 24624 := by
  rw [← committee_format]; exact sound_syncCommittee.fixed c _ committee_field
theorem aggregate_length (c : SyncAggregate) : (BeaconFormat.aggregate c).length = 160 := by
  rw [← aggregate_format]; exact sound_syncAggregate.fixed c _ aggregate_field

theorem bootstrap_length (f : Fork) (x : Bootstrap f) : (BeaconFormat.bootstrap f x).length ≤ 30000 := by
  have h1 := lcHeader_length f x.header
  have h2 := committee_length x.currentSyncCommittee
  have h3 := roots_length x.branch.1
  have h4 := x.branch.2
  cases f <;>
  simp only [BeaconFormat.bootstrap, BeaconFormat.offset, List.length_append, toLe_length, h2, h3, h4,
    committeeBranchLen] <;> omega

theorem update_length (f : Fork) (x : Update f) : (BeaconFormat.update f x).length ≤ 30000 := by
  have h1 := lcHeader_length f x.attested
  have h1' := lcHeader_length f x.finalized
  have h2 := committee_length x.nextSyncCommittee
  have h3 := roots_length x.nextBranch.1
  have h4 := x.nextBranch.2
  have h5 := roots_length x.finalityBranch.1
  have h6 := x.finalityBranch.2
  have h7 := aggregate_length x.aggregate
  cases f <;>
  simp only [BeaconFormat.update, BeaconFormat.updateWith, BeaconFormat.offset, BeaconFormat.num,
    List.length_append, toLe_length, h2, h3, h4, h5, h6, h7,
    committeeBranchLen, finalityBranchLen] <;> omega

theorem finality_length (f : Fork) (x : FinalityUpdate f) : (BeaconFormat.finality f x).length ≤ 30000 := by
  have h1 := lcHeader_length f x.attested
  have h1' := lcHeader_length f x.finalized
  have h5 := roots_length x.finalityBranch.1
  have h6 := x.finalityBranch.2
  have h7 := aggregate_length x.aggregate
  cases f <;>
  simp only [BeaconFormat.finality, BeaconFormat.finalityWith, BeaconFormat.offset, BeaconFormat.num,
    List.length_append, toLe_length, h5, h6, h7, finalityBranchLen] <;> omega

theorem optimistic_length (f : Fork) (x : OptimisticUpdate f) :
    (BeaconFormat.optimistic f x).length ≤ 30000 := by
  have h1 := lcHeader_length f x.attested
  have h7 := aggregate_length x.aggregate
  cases f <;>
  simp only [BeaconFormat.optimistic, BeaconFormat.offset, BeaconFormat.num,
    List.length_append, toLe_length, h7] <;> omega

theorem summaries_length (s : Summaries) : (BeaconFormat.summaries s).length < 2 ^ 31 := by
  unfold BeaconFormat.summaries
  have h3 := roots_length s.proof.1
  have h4 := s.proof.2
  have h5 := s.summaries.2
  have h6 := flatten_length 64 (s.summaries.1.map fun x => x.blockRoot.bytes ++ x.stateRoot.bytes) (by
    intro v hv
    obtain ⟨x, _, rfl⟩ := List.mem_map.mp hv
    simp [Id.bytes])
  rw [List.length_map] at h6
  simp only [BeaconFormat.offset, BeaconFormat.num, List.length_append, toLe_length, h3, h4, h6]
  omega

theorem sum_le_mul {n : Nat} : ∀ {l : List Nat}, (∀ x ∈ l, x ≤ n) → l.sum ≤ n * l.length
  | [], _ => by simp
  | a :: l, h => by
    have := sum_le_mul (l := l) fun x hx => h x (by simp [hx])
    have ha := h a (by simp)
    rw [List.sum_cons, List.length_cons, Nat.mul_succ]; omega

theorem value_length (v : Value) : v.encode.length < 2 ^ 32 := by
  rw [value_format]
  have hd : ∀ f, (BeaconFormat.digest f).length = 4 := fun f => by rw [← digest_format, digest_length]
  cases v with
  | summaries f s =>
    have := summaries_length s
    simp only [BeaconFormat.value, List.length_append, hd]; omega
  | bootstrap v =>
    have := bootstrap_length v.1 v.2
    simp only [BeaconFormat.value, List.length_append, hd]; omega
  | updates l =>
    simp only [BeaconFormat.value]
    rw [← list_format, encodeVarList_length, List.length_map]
    have h1 := l.2
    have := sum_le_mul (n := 30004)
      (l := ((l.1.map fun v => BeaconFormat.digest v.1 ++ BeaconFormat.update v.1 v.2).map List.length)) (by
        intro x hx
        obtain ⟨b, hb, rfl⟩ := List.mem_map.mp hx
        obtain ⟨v, hv, rfl⟩ := List.mem_map.mp hb
        have := update_length v.1 v.2
        rw [List.length_append, hd]; omega)
    rw [List.length_map, List.length_map] at this
    have : 30004 * l.1.length ≤ 30004 * 128 := Nat.mul_le_mul_left _ h1
    omega
  | optimistic v =>
    have := optimistic_length v.1 v.2
    simp only [BeaconFormat.value, List.length_append, hd]; omega
  | finality v =>
    have := finality_length v.1 v.2
    simp only [BeaconFormat.value, List.length_append, hd]; omega

theorem versioned_abort {T : Fork → Type} (c : ∀ f, ContentKey.Codec (T f)) (bs : Bytes) :
    decodeVersioned c bs = .error .abort ↔ bs.length < 4 := by
  unfold decodeVersioned
  split
  · simp [*]
  · next h =>
    constructor
    · intro hc
      split at hc
      · cases hc
      · split at hc <;> cases hc
    · intro h'; exact absurd h' h

theorem map_abort {α β} {r : Except DecErr α} {f : α → β} :
    r.map f = .error .abort ↔ r = .error .abort := by
  cases r <;> simp [Except.map]

theorem itemsE_abort (items : List Bytes) :
    itemsE (decodeVersioned updateCodec) items = .error .abort ↔
      ∃ pre b post, items = pre ++ b :: post ∧ b.length < 4 ∧
        ∀ a ∈ pre, ∃ u : Versioned Update, a = encodeVersioned updateCodec u := by
  induction items with
  | nil =>
    simp only [itemsE]
    constructor
    · intro h; cases h
    · rintro ⟨pre, b, post, h, -⟩; cases pre <;> cases h
  | cons a items ih =>
    simp only [itemsE]
    cases hd : decodeVersioned updateCodec a with
    | error e =>
      simp only
      constructor
      · intro h
        cases h
        exact ⟨[], a, items, rfl, (versioned_abort _ _).mp hd, by simp⟩
      · rintro ⟨pre, b, post, h, hb, hp⟩
        cases pre with
        | nil =>
          simp only [List.nil_append, List.cons.injEq] at h
          rw [h.1, (versioned_abort _ _).mpr hb] at hd
          cases hd; rfl
        | cons p pre =>
          simp only [List.cons_append, List.cons.injEq] at h
          obtain ⟨u, hu⟩ := hp p (by simp)
          rw [h.1, hu, decode_encodeVersioned sound_update] at hd
          · cases hd
          · have := update_length u.1 u.2
            have h4 := digest_length u.1
            rw [encodeVersioned, update_format, List.length_append]
            omega
    | ok x =>
      simp only
      constructor
      · intro h
        cases hi : itemsE (decodeVersioned updateCodec) items with
        | ok xs => rw [hi] at h; cases h
        | error e =>
          rw [hi] at h
          cases h
          obtain ⟨pre, b, post, h1, h2, h3⟩ := ih.mp hi
          refine ⟨a :: pre, b, post, by rw [h1]; rfl, h2, ?_⟩
          intro y hy
          rcases List.mem_cons.mp hy with rfl | hy
          · exact ⟨x, (encode_decodeVersioned sound_update hd).symm⟩
          · exact h3 y hy
      · rintro ⟨pre, b, post, h, hb, hp⟩
        cases pre with
        | nil =>
          simp only [List.nil_append, List.cons.injEq] at h
          rw [h.1, (versioned_abort _ _).mpr hb] at hd
          cases hd
        | cons p pre =>
          simp only [List.cons_append, List.cons.injEq] at h
          rw [ih.mpr ⟨pre, b, post, h.2, hb, fun y hy => hp y (by simp [hy])⟩]

end Verif.BeaconValue
