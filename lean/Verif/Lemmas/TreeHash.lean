import Verif.Model.TreeHash
import Verif.Lemmas.SszTypes
import Verif.Lemmas.AcceptCode
import Verif.Lemmas.Merkle
import Verif.Lemmas.HeaderValidator
import Verif.Lemmas.LightClient
import Verif.Props.MerkleSpec

/-! Types with their hash trees: soundness of the codecs, and that a root fixes the value. -/

namespace Verif.TreeHash
open Verif.Ssz Verif.SszT Verif.ContentKey
open Verif.Merkle (zeroHash treeRoot listRoot CollisionBetween)
open Verif.HeaderValidator (leNode depthFor depthFor_le)
open Verif.LightClient (chunk chunk_inj fromBe_inj)

theorem coll_mono {H : Id → Id → Id} {A B A' B' : List (Id × Id)} (hA : ∀ p ∈ A, p ∈ A') (hB : ∀ p ∈ B, p ∈ B')
    (h : CollisionBetween H A B) : CollisionBetween H A' B' := by
  obtain ⟨p, hp, q, hq, h⟩ := h
  exact ⟨p, hA p hp, q, hB q hq, h⟩

theorem root_ofLeaves (H : Id → Id → Id) : ∀ (d : Nat) (l : List HTree), l.length ≤ 2 ^ d →
    (ofLeaves d l).root H = listRoot H d (l.map (HTree.root H))
  | d, [], _ => by
    unfold ofLeaves
    rw [List.map_nil, Merkle.listRoot_nil]; rfl
  | 0, [t], _ => rfl
  | 0, _ :: _ :: _, h => by simp at h
  | d + 1, t :: ts, h => by
    have hp : 2 ^ (d + 1) = 2 ^ d + 2 ^ d := by rw [Nat.pow_succ]; omega
    simp only [ofLeaves, HTree.root]
    rw [root_ofLeaves H d _ (by rw [List.length_take]; omega), root_ofLeaves H d _ (by rw [List.length_drop]; omega)]
    generalize (t :: ts) = l
    simp only [listRoot, treeRoot]
    congr 1
    · apply Merkle.treeRoot_congr
      intro i hi
      simp [List.getD_eq_getElem?_getD, List.getElem?_take, hi]
    · apply Merkle.treeRoot_congr
      intro i hi
      simp [List.getD_eq_getElem?_getD, List.getElem?_drop]

theorem pairs_mem {H : Id → Id → Id} : ∀ {d : Nat} {l : List HTree}, l.length ≤ 2 ^ d → ∀ {t : HTree}, t ∈ l →
    ∀ p ∈ t.pairs H, p ∈ (ofLeaves d l).pairs H
  | _, [], _, _, ht, _, _ => by cases ht
  | 0, [a], _, t, ht, p, hp => by
    simp only [List.mem_singleton] at ht; subst ht; exact hp
  | 0, _ :: _ :: _, h, _, _, _, _ => by simp at h
  | d + 1, a :: as, h, t, ht, p, hp => by
    have hpow : 2 ^ (d + 1) = 2 ^ d + 2 ^ d := by rw [Nat.pow_succ]; omega
    simp only [ofLeaves, HTree.pairs, List.mem_cons, List.mem_append]
    right
    rw [← List.take_append_drop (2 ^ d) (a :: as), List.mem_append] at ht
    rcases ht with ht | ht
    · exact .inl (pairs_mem (by rw [List.length_take]; omega) ht p hp)
    · exact .inr (pairs_mem (by rw [List.length_drop]; omega) ht p hp)

/-- Equal roots over the same number of subtrees: equal roots of the subtrees. -/
theorem leaves_binding {H : Id → Id → Id} : ∀ {d : Nat} {l l' : List HTree}, l.length = l'.length → l.length ≤ 2 ^ d →
    (ofLeaves d l).root H = (ofLeaves d l').root H →
    ¬ CollisionBetween H ((ofLeaves d l).pairs H) ((ofLeaves d l').pairs H) →
    l.map (HTree.root H) = l'.map (HTree.root H)
  | _, [], [], _, _, _, _ => rfl
  | _, [], _ :: _, hl, _, _, _ => by simp at hl
  | _, _ :: _, [], hl, _, _, _ => by simp at hl
  | 0, [a], [b], _, _, hr, _ => by simpa [ofLeaves] using hr
  | 0, _ :: _ :: _, _, _, h, _, _ => by simp at h
  | 0, [_], _ :: _ :: _, hl, _, _, _ => by simp at hl
  | d + 1, a :: as, b :: bs, hl, h, hr, hc => by
    have hpow : 2 ^ (d + 1) = 2 ^ d + 2 ^ d := by rw [Nat.pow_succ]; omega
    simp only [ofLeaves, HTree.root, HTree.pairs] at hr hc
    have hpair : ((ofLeaves d ((a :: as).take (2 ^ d))).root H, (ofLeaves d ((a :: as).drop (2 ^ d))).root H) =
        ((ofLeaves d ((b :: bs).take (2 ^ d))).root H, (ofLeaves d ((b :: bs).drop (2 ^ d))).root H) := by
      apply Classical.byContradiction
      intro hne
      exact hc ⟨_, by simp, _, by simp, hne, hr⟩
    have e1 := (Prod.mk.inj hpair).1
    have e2 := (Prod.mk.inj hpair).2
    have h1 := leaves_binding (H := H) (d := d) (l := (a :: as).take (2 ^ d)) (l' := (b :: bs).take (2 ^ d))
      (by rw [List.length_take, List.length_take, hl]) (by rw [List.length_take]; omega) e1
      (fun hcol => hc (coll_mono (fun p hp => by simp [hp]) (fun p hp => by simp [hp]) hcol))
    have h2 := leaves_binding (H := H) (d := d) (l := (a :: as).drop (2 ^ d)) (l' := (b :: bs).drop (2 ^ d))
      (by rw [List.length_drop, List.length_drop, hl]) (by rw [List.length_drop]; omega) e2
      (fun hcol => hc (coll_mono (fun p hp => by simp [hp]) (fun p hp => by simp [hp]) hcol))
    rw [← List.take_append_drop (2 ^ d) (a :: as), ← List.take_append_drop (2 ^ d) (b :: bs), List.map_append,
      List.map_append, h1, h2]

theorem byteLeaves_length (bs : Bytes) : (byteLeaves bs).length = (bs.length + 31) / 32 := by
  have : ∀ k (b : Bytes), (chunks 32 k b).length = k := by
    intro k
    induction k with
    | zero => intro b; rfl
    | succ k ih => intro b; simp [chunks, ih]
  rw [byteLeaves, List.length_map, this]

theorem chunks_inj : ∀ (k : Nat) (a b : Bytes), a.length = b.length → a.length ≤ 32 * k →
    (chunks 32 k a).map chunk = (chunks 32 k b).map chunk → a = b
  | 0, a, b, hl, h, _ => by
    have ha : a = [] := List.length_eq_zero_iff.mp (by omega)
    have hb : b = [] := List.length_eq_zero_iff.mp (by omega)
    rw [ha, hb]
  | k + 1, a, b, hl, h, he => by
    simp only [chunks, List.map_cons, List.cons.injEq] at he
    have h1 := chunk_inj (by rw [List.length_take, List.length_take, hl]) (by rw [List.length_take]; omega) he.1
    have h2 := chunks_inj k (a.drop 32) (b.drop 32) (by rw [List.length_drop, List.length_drop, hl])
      (by rw [List.length_drop]; omega) he.2
    rw [← List.take_append_drop 32 a, h1, h2, List.take_append_drop]

theorem byteLeaves_inj (H : Id → Id → Id) {a b : Bytes} (hl : a.length = b.length)
    (h : (byteLeaves a).map (HTree.root H) = (byteLeaves b).map (HTree.root H)) : a = b := by
  simp only [byteLeaves, List.map_map] at h
  rw [hl] at h
  exact chunks_inj ((b.length + 31) / 32) a b hl (by omega) h

theorem bytes_binding {H : Id → Id → Id} {d : Nat} {a b : Bytes} (hl : a.length = b.length)
    (hd : (a.length + 31) / 32 ≤ 2 ^ d)
    (hr : (ofLeaves d (byteLeaves a)).root H = (ofLeaves d (byteLeaves b)).root H)
    (hc : ¬ CollisionBetween H ((ofLeaves d (byteLeaves a)).pairs H) ((ofLeaves d (byteLeaves b)).pairs H)) : a = b :=
  byteLeaves_inj H hl (leaves_binding (by rw [byteLeaves_length, byteLeaves_length, hl])
    (by rw [byteLeaves_length]; exact hd) hr hc)

theorem leNode_inj {a b : Nat} (ha : a < 2 ^ 256) (hb : b < 2 ^ 256) (h : leNode a = leNode b) : a = b := by
  have h' := congrArg BitVec.toNat h
  simp only [leNode, BitVec.toNat_ofNat] at h'
  have l1 := fromBe_lt (toLe 32 a)
  have l2 := fromBe_lt (toLe 32 b)
  rw [toLe_length] at l1 l2
  rw [Nat.mod_eq_of_lt l1, Nat.mod_eq_of_lt l2] at h'
  exact toLe_inj (n := 32) (by simpa using ha) (by simpa using hb) (fromBe_inj (by rw [toLe_length, toLe_length]) h')

/-- With the length mixed in: equal lengths, and equal roots of the contents. -/
theorem withLength_binding {H : Id → Id → Id} {s t : HTree} {m n : Nat} (hm : m < 2 ^ 256) (hn : n < 2 ^ 256)
    (hr : (withLength s m).root H = (withLength t n).root H)
    (hc : ¬ CollisionBetween H ((withLength s m).pairs H) ((withLength t n).pairs H)) :
    m = n ∧ s.root H = t.root H ∧ ¬ CollisionBetween H (s.pairs H) (t.pairs H) := by
  simp only [withLength, HTree.root, HTree.pairs, List.append_nil] at hr hc
  have hpair : (s.root H, leNode m) = (t.root H, leNode n) := by
    apply Classical.byContradiction
    intro hne
    exact hc ⟨_, by simp, _, by simp, hne, hr⟩
  obtain ⟨h1, h2⟩ := Prod.mk.inj hpair
  exact ⟨leNode_inj hm hn h2, h1, fun hcol => hc (coll_mono (fun p hp => by simp [hp]) (fun p hp => by simp [hp]) hcol)⟩

/-- A root fixes the value, unless two of the pairs hashed collide. -/
structure Binding {α} (t : Ty α) : Prop where
  eq : ∀ (H : Id → Id → Id) (x y : α), (t.tree x).root H = (t.tree y).root H →
    ¬ CollisionBetween H ((t.tree x).pairs H) ((t.tree y).pairs H) → x = y
  packed : t.basic = true → ∃ k, (k = 1 ∨ k = 8 ∨ k = 32) ∧ t.codec.field = .fixed k ∧
    (∀ x, (t.codec.enc x).length = k) ∧ ∀ x y, t.codec.enc x = t.codec.enc y → x = y

theorem binding_u64 : Binding u64 where
  eq H x y h _ := by
    simp only [u64, HTree.root] at h
    have hx := x.toNat_lt
    have hy := y.toNat_lt
    exact UInt64.toNat_inj.mp (leNode_inj (by omega) (by omega) h)
  packed _ := by
    refine ⟨8, by simp, rfl, fun x => sound_u64.fixed x 8 rfl, fun x y h => ?_⟩
    have h' := congrArg ContentKey.u64.dec h
    have hx := sound_u64.rt x (by rw [sound_u64.fixed x 8 rfl]; decide)
    have hy := sound_u64.rt y (by rw [sound_u64.fixed y 8 rfl]; decide)
    simp only [u64] at h'
    rw [hx, hy] at h'
    exact Option.some.inj h'

theorem binding_u256 : Binding u256 where
  eq H x y h _ := by
    simp only [u256, HTree.root] at h
    exact BitVec.eq_of_toNat_eq (leNode_inj x.isLt y.isLt h)
  packed _ := by
    refine ⟨32, by simp, rfl, fun x => sound_u256.fixed x 32 rfl, fun x y h => ?_⟩
    have h' := congrArg SszT.u256.dec h
    have hx := sound_u256.rt x (by rw [sound_u256.fixed x 32 rfl]; decide)
    have hy := sound_u256.rt y (by rw [sound_u256.fixed y 32 rfl]; decide)
    simp only [u256] at h'
    rw [hx, hy] at h'
    exact Option.some.inj h'

theorem binding_b256 : Binding b256 where
  eq H x y h _ := h
  packed h := by cases h

theorem binding_bytes (n : Nat) : Binding (bytes n) where
  eq H x y h hc := by
    simp only [bytes] at h hc
    exact Subtype.ext (bytes_binding (by rw [x.2, y.2]) (by rw [x.2]; exact depthFor_le _) h hc)
  packed h := by cases h

theorem depth_le {a b : Nat} (h : a ≤ b) : a ≤ 2 ^ depthFor b := Nat.le_trans h (depthFor_le b)

theorem binding_byteList (max : Nat) (hmax : max < 2 ^ 256) : Binding (byteList max) where
  eq H x y h hc := by
    simp only [byteList] at h hc
    have hx := x.2
    have hy := y.2
    obtain ⟨hl, h, hc⟩ := withLength_binding (by omega) (by omega) h hc
    exact Subtype.ext (bytes_binding hl (depth_le (by omega)) h hc)
  packed h := by cases h

theorem sound_bitlist (max : Nat) : Sound (bitlist max).codec where
  rt x _ := by
    simp only [bitlist]
    rw [bitlist_roundtrip max x.1 x.2, Option.bind_some, toBList_self]
  canon b x h := by
    simp only [bitlist] at h ⊢
    cases hd : bitlistDecode max b with
    | none => rw [hd] at h; cases h
    | some bits =>
      rw [hd, Option.bind_some] at h
      rw [toBList_some h]
      exact (bitlist_canonical max b bits hd).1.symm
  fixed x n h := by cases h

theorem bits_inj {a b : List Bool} (hl : a.length = b.length)
    (h : toLe (if a.length = 0 then 1 else (a.length + 7) / 8) (bitsToNat a) =
      toLe (if b.length = 0 then 1 else (b.length + 7) / 8) (bitsToNat b)) : a = b := by
  rw [hl] at h
  have hk : ∀ c : List Bool, c.length = b.length → bitsToNat c < 256 ^ (if b.length = 0 then 1 else (b.length + 7) / 8) := by
    intro c hc
    have h1 := bitsToNat_lt c
    rw [pow256_eq]
    exact Nat.lt_of_lt_of_le h1 (Nat.pow_le_pow_right (by omega) (by split <;> omega))
  have hn := toLe_inj (hk a hl) (hk b rfl) h
  have ha := natToBits_bitsToNat a 0
  have hb := natToBits_bitsToNat b 0
  simp at ha hb
  rw [← ha, ← hb, hn, hl]

theorem binding_bitlist (max : Nat) (hmax : max < 2 ^ 256) : Binding (bitlist max) where
  eq H x y h hc := by
    simp only [bitlist] at h hc
    have hx := x.2
    have hy := y.2
    obtain ⟨hl, h, hc⟩ := withLength_binding (by omega) (by omega) h hc
    refine Subtype.ext (bits_inj hl (bytes_binding ?_ ?_ h hc))
    · rw [toLe_length, toLe_length, hl]
    · rw [toLe_length]
      split
      · exact Nat.succ_le_of_lt (Nat.pow_pos (by decide))
      · exact depth_le (by omega)
  packed h := by cases h

theorem leafCount_fits {α} {t : Ty α} (ht : Binding t) {n max : Nat} {l : List α} (hn : l.length = n) (h : n ≤ max) :
    (seqLeaves t l).length ≤ leafCount t max := by
  unfold seqLeaves leafCount
  cases hb : t.basic with
  | false => simp [hn, h]
  | true =>
    obtain ⟨k, hk, hf, hlen, _⟩ := ht.packed hb
    have hfl := flatten_length k (l.map t.codec.enc) (by
      intro v hv
      obtain ⟨x, _, rfl⟩ := List.mem_map.mp hv
      exact hlen x)
    rw [List.length_map, hn] at hfl
    simp only [if_true, byteLeaves_length, hfl, hf, Field.headLen]
    rcases hk with rfl | rfl | rfl <;> simp <;> omega

theorem seqLeaves_length {α} {t : Ty α} (ht : Binding t) {l l' : List α} (h : l.length = l'.length) :
    (seqLeaves t l).length = (seqLeaves t l').length := by
  unfold seqLeaves
  cases hb : t.basic with
  | false => simp [h]
  | true =>
    obtain ⟨k, _, _, hlen, _⟩ := ht.packed hb
    have hfl : ∀ l : List α, ((l.map t.codec.enc).flatten).length = k * l.length := by
      intro l
      have := flatten_length k (l.map t.codec.enc) (by
        intro v hv
        obtain ⟨x, _, rfl⟩ := List.mem_map.mp hv
        exact hlen x)
      rwa [List.length_map] at this
    simp only [if_true, byteLeaves_length, hfl, h]

theorem flatten_inj {α} {c : Codec α} {k : Nat} (hlen : ∀ x, (c.enc x).length = k)
    (hinj : ∀ x y, c.enc x = c.enc y → x = y) : ∀ {l l' : List α}, l.length = l'.length →
    (l.map c.enc).flatten = (l'.map c.enc).flatten → l = l'
  | [], [], _, _ => rfl
  | [], _ :: _, h, _ => by simp at h
  | _ :: _, [], h, _ => by simp at h
  | x :: l, y :: l', h, he => by
    simp only [List.map_cons, List.flatten_cons] at he
    obtain ⟨h1, h2⟩ := List.append_inj he (by rw [hlen, hlen])
    rw [hinj x y h1, flatten_inj hlen hinj (by simpa using h) h2]

theorem map_root_eq {α} {t : Ty α} (ht : Binding t) {H : Id → Id → Id} : ∀ {l l' : List α},
    l.map (fun x => (t.tree x).root H) = l'.map (fun x => (t.tree x).root H) →
    (∀ x ∈ l, ∀ y ∈ l', ¬ CollisionBetween H ((t.tree x).pairs H) ((t.tree y).pairs H)) → l = l'
  | [], [], _, _ => rfl
  | [], _ :: _, h, _ => by simp at h
  | _ :: _, [], h, _ => by simp at h
  | x :: l, y :: l', h, hc => by
    simp only [List.map_cons, List.cons.injEq] at h
    rw [ht.eq H x y h.1 (hc x (by simp) y (by simp)),
      map_root_eq ht h.2 (fun a ha b hb => hc a (by simp [ha]) b (by simp [hb]))]

theorem seq_binding {α} {t : Ty α} (ht : Binding t) {H : Id → Id → Id} {d : Nat} {l l' : List α}
    (hl : l.length = l'.length) (hd : (seqLeaves t l).length ≤ 2 ^ d)
    (hr : (ofLeaves d (seqLeaves t l)).root H = (ofLeaves d (seqLeaves t l')).root H)
    (hc : ¬ CollisionBetween H ((ofLeaves d (seqLeaves t l)).pairs H) ((ofLeaves d (seqLeaves t l')).pairs H)) :
    l = l' := by
  have hll := seqLeaves_length ht hl
  have hm := leaves_binding hll hd hr hc
  have hd' : (seqLeaves t l').length ≤ 2 ^ d := hll ▸ hd
  cases hb : t.basic with
  | true =>
    obtain ⟨k, _, _, hlen, hinj⟩ := ht.packed hb
    simp only [seqLeaves, hb, if_true] at hm
    refine flatten_inj hlen hinj hl (byteLeaves_inj H ?_ hm)
    have hfl : ∀ l : List α, ((l.map t.codec.enc).flatten).length = k * l.length := by
      intro l
      have := flatten_length k (l.map t.codec.enc) (by
        intro v hv
        obtain ⟨x, _, rfl⟩ := List.mem_map.mp hv
        exact hlen x)
      rwa [List.length_map] at this
    rw [hfl, hfl, hl]
  | false =>
    have hs : ∀ l, seqLeaves t l = l.map t.tree := fun l => by simp [seqLeaves, hb]
    rw [hs, hs, List.map_map, List.map_map] at hm
    refine map_root_eq ht hm fun x hx y hy hcol => hc (coll_mono ?_ ?_ hcol)
    · exact pairs_mem hd (by rw [hs]; exact List.mem_map_of_mem hx)
    · exact pairs_mem hd' (by rw [hs]; exact List.mem_map_of_mem hy)

theorem binding_vector {α} {t : Ty α} (ht : Binding t) (n : Nat) : Binding (vector t n) where
  eq H x y h hc := by
    simp only [vector] at h hc
    exact Subtype.ext (seq_binding ht (by rw [x.2, y.2]) (depth_le (leafCount_fits ht x.2 (Nat.le_refl n))) h hc)
  packed h := by cases h

theorem listTree_binding {α} {t : Ty α} (ht : Binding t) {max : Nat} (hmax : max < 2 ^ 256) {H : Id → Id → Id}
    {x y : BList α max} (h : (listTree t max x).root H = (listTree t max y).root H)
    (hc : ¬ CollisionBetween H ((listTree t max x).pairs H) ((listTree t max y).pairs H)) : x = y := by
  simp only [listTree] at h hc
  have hx := x.2
  have hy := y.2
  obtain ⟨hl, h, hc⟩ := withLength_binding (by omega) (by omega) h hc
  exact Subtype.ext (seq_binding ht hl (depth_le (leafCount_fits ht rfl x.2)) h hc)

theorem binding_list {α} {t : Ty α} (ht : Binding t) {max : Nat} (hmax : max < 2 ^ 256) : Binding (list t max) where
  eq _ _ _ h hc := listTree_binding ht hmax h hc
  packed h := by cases h

theorem binding_varList {α} {t : Ty α} (ht : Binding t) {max : Nat} (hmax : max < 2 ^ 256) : Binding (varList t max) where
  eq _ _ _ h hc := listTree_binding ht hmax h hc
  packed h := by cases h

structure FieldsBinding {α} (r : Fields α) : Prop where
  len : ∀ x, (r.trees x).length = r.ssz.fields.length
  eq : ∀ (H : Id → Id → Id) (x y : α), (r.trees x).map (HTree.root H) = (r.trees y).map (HTree.root H) →
    (∀ s ∈ r.trees x, ∀ t ∈ r.trees y, ¬ CollisionBetween H (s.pairs H) (t.pairs H)) → x = y

theorem binding_nil : FieldsBinding Fields.nil where
  len _ := rfl
  eq _ _ _ _ _ := rfl

theorem binding_cons {α β} {t : Ty α} {r : Fields β} (ht : Binding t) (hr : FieldsBinding r) :
    FieldsBinding (Fields.cons t r) where
  len x := by simp [Fields.cons, Rec.cons, hr.len]
  eq H x y h hc := by
    simp only [Fields.cons, List.map_cons, List.cons.injEq] at h hc
    refine Prod.ext (ht.eq H _ _ h.1 (hc _ (by simp) _ (by simp))) (hr.eq H _ _ h.2 ?_)
    exact fun s hs t ht => hc s (by simp [hs]) t (by simp [ht])

theorem binding_struct {α β} {r : Fields α} (hr : FieldsBinding r) {f : α → β} {g : β → α}
    (hfg : ∀ y, f (g y) = y) : Binding (struct r f g) where
  eq H x y h hc := by
    simp only [struct] at h hc
    have hd : ∀ z, (r.trees z).length ≤ 2 ^ depthFor r.ssz.fields.length := fun z => by
      rw [hr.len]; exact depthFor_le _
    have hm := leaves_binding (by rw [hr.len, hr.len]) (hd (g x)) h hc
    have := hr.eq H (g x) (g y) hm fun s hs t ht hcol =>
      hc (coll_mono (pairs_mem (hd _) hs) (pairs_mem (hd _) ht) hcol)
    rw [← hfg x, this, hfg]
  packed h := by cases h

/-- The codec is sound and the root binding. -/
structure Good {α} (t : Ty α) : Prop where
  sound : Sound t.codec
  binding : Binding t

structure FieldsGood {α} (r : Fields α) : Prop where
  sound : RecSound r.ssz
  binding : FieldsBinding r

theorem good_u64 : Good u64 := ⟨sound_u64, binding_u64⟩
theorem good_u256 : Good u256 := ⟨sound_u256, binding_u256⟩
theorem good_b256 : Good b256 := ⟨sound_hash, binding_b256⟩
theorem good_bytes (n : Nat) : Good (bytes n) := ⟨sound_bytesN n, binding_bytes n⟩
theorem good_byteList {n : Nat} (h : n < 2 ^ 256) : Good (byteList n) := ⟨sound_byteList n, binding_byteList n h⟩
theorem good_bitlist {n : Nat} (h : n < 2 ^ 256) : Good (bitlist n) := ⟨sound_bitlist n, binding_bitlist n h⟩
theorem good_vector {α} {t : Ty α} (ht : Good t) {k : Nat} (hf : t.codec.field = .fixed k) (n : Nat) :
    Good (vector t n) := ⟨sound_vector ht.sound hf n, binding_vector ht.binding n⟩
theorem good_list {α} {t : Ty α} (ht : Good t) {k : Nat} (hk : 0 < k) (hf : t.codec.field = .fixed k) {n : Nat}
    (h : n < 2 ^ 256) : Good (list t n) := ⟨sound_list ht.sound hk hf n, binding_list ht.binding h⟩
theorem good_varList {α} {t : Ty α} (ht : Good t) {n : Nat} (h : n < 2 ^ 256) : Good (varList t n) :=
  ⟨sound_varList ht.sound n, binding_varList ht.binding h⟩
theorem good_nil : FieldsGood Fields.nil := ⟨recSound_nil, binding_nil⟩
theorem good_cons {α β} {t : Ty α} {r : Fields β} (ht : Good t) (hr : FieldsGood r) : FieldsGood (Fields.cons t r) :=
  ⟨recSound_cons ht.sound hr.sound, binding_cons ht.binding hr.binding⟩
theorem good_struct {α β} {r : Fields α} (hr : FieldsGood r) {f : α → β} {g : β → α} (hfg : ∀ y, f (g y) = y)
    (hgf : ∀ x, g (f x) = x) : Good (struct r f g) :=
  ⟨sound_container hr.sound hfg hgf, binding_struct hr.binding hfg⟩

end Verif.TreeHash
