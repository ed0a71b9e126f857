import Verif.Lemmas.Rlp
import Verif.Props.HistoryContentSpec

namespace Verif.HistoryContent
open Verif.Rlp Verif.RlpFormat Verif.HistoryValue Verif.ContentKey

variable {α Ty St Log Hd Tx Rc Wd : Type}

/-- What a decoder that reads exactly the pieces of a relation makes of a list of them. -/
theorem items_iff {dec : Bytes → Except Err (α × Bytes)} {R : α → Bytes → Prop}
    (h : ∀ bs x rest, dec bs = .ok (x, rest) ↔ ∃ p, R x p ∧ bs = p ++ rest) (hne : ∀ x p, R x p → p ≠ []) :
    ∀ (n : Nat) (bs : Bytes) (xs : List α), bs.length ≤ n → (items dec bs = .ok xs ↔ Pieces R xs bs) := by
  intro n
  induction n with
  | zero =>
    intro bs xs hn
    have : bs = [] := List.length_eq_zero_iff.mp (by omega)
    subst this
    unfold items
    simp only [List.isEmpty_nil, if_true, Except.ok.injEq]
    constructor
    · rintro rfl; exact .nil
    · intro hp
      generalize hb : ([] : Bytes) = bs at hp
      cases hp with
      | nil => rfl
      | cons h1 h2 =>
        have := List.append_eq_nil_iff.mp hb.symm
        exact absurd this.1 (hne _ _ h1)
  | succ n ih =>
    intro bs xs hn
    unfold items
    by_cases he : bs = []
    · subst he
      simp only [List.isEmpty_nil, if_true, Except.ok.injEq]
      constructor
      · rintro rfl; exact .nil
      · intro hp
        generalize hb : ([] : Bytes) = bs at hp
        cases hp with
        | nil => rfl
        | cons h1 h2 =>
          have := List.append_eq_nil_iff.mp hb.symm
          exact absurd this.1 (hne _ _ h1)
    · have he' : bs.isEmpty = false := by simpa using he
      rw [he']
      simp only [Bool.false_eq_true, if_false]
      constructor
      · intro hi
        split at hi
        · cases hi
        · next x rest hd =>
          split at hi
          · next hl =>
            split at hi
            · cases hi
            · next ys hy =>
              cases hi
              obtain ⟨p, h1, rfl⟩ := (h _ _ _).mp hd
              exact .cons h1 ((ih rest ys (by omega)).mp hy)
          · cases hi
      · intro hp
        cases hp with
        | nil => exact absurd rfl he
        | @cons x p ys rest h1 h2 =>
          have hpos := List.length_pos_iff.mpr (hne _ _ h1)
          have hlen : (p ++ rest).length = p.length + rest.length := List.length_append
          rw [(h _ _ _).mpr ⟨p, h1, rfl⟩]
          simp only
          rw [if_pos (by omega), (ih rest ys (by omega)).mpr h2]

theorem list_ne {payload p : Bytes} (h : IsList payload p) : p ≠ [] := by
  obtain ⟨q, h1 | h1, rfl⟩ := h
  · obtain ⟨_, b, rfl, _⟩ := h1; simp
  · obtain ⟨_, b, be, rfl, _⟩ := h1; simp

/-- What `decode` of a list reads. -/
theorem vec_iff {c : Codec α} {R : α → Bytes → Prop}
    (h : ∀ bs x rest, c.dec bs = .ok (x, rest) ↔ ∃ p, R x p ∧ bs = p ++ rest) (hne : ∀ x p, R x p → p ≠ [])
    (bs : Bytes) (xs : List α) (rest : Bytes) :
    (vec c).dec bs = .ok (xs, rest) ↔ ∃ p, IsListOf R xs p ∧ bs = p ++ rest := by
  constructor
  · intro hd
    simp only [vec] at hd
    split at hd
    · cases hd
    · next hh buf hdec =>
      split at hd
      · next hl =>
        split at hd
        · cases hd
        · next ys hy =>
          cases hd
          obtain ⟨l, n⟩ := hh
          simp only at hl hy
          subst hl
          obtain ⟨p, h1, rfl, h2⟩ := decode_list.mp hdec
          refine ⟨p ++ buf.take n, ⟨buf.take n, (items_iff h hne _ _ _ (Nat.le_refl _)).mp hy, p, ?_, rfl⟩, ?_⟩
          · rw [List.length_take, Nat.min_eq_left h2]; exact h1
          · rw [List.append_assoc, List.take_append_drop]
      · cases hd
  · rintro ⟨p, ⟨payload, h1, q, h2, rfl⟩, rfl⟩
    simp only [vec]
    rw [List.append_assoc, decode_list.mpr ⟨q, h2, rfl, by simp⟩]
    simp only [if_true, List.take_left', List.drop_left']
    rw [(items_iff h hne _ _ _ (Nat.le_refl _)).mpr h1]

theorem Codec.Faithful.iff {c : Codec α} (hc : c.Faithful) (bs : Bytes) (x : α) (rest : Bytes) :
    c.dec bs = .ok (x, rest) ↔ ∃ p, c.Reads x p ∧ bs = p ++ rest := by
  constructor
  · intro h
    obtain ⟨p, _, h1, h2⟩ := hc.front _ _ _ h
    exact ⟨p, h2, h1⟩
  · rintro ⟨p, h1, rfl⟩
    exact h1 rest

theorem Codec.Faithful.ne {c : Codec α} (hc : c.Faithful) {x : α} {p : Bytes} (h : c.Reads x p) : p ≠ [] := by
  rintro rfl
  have h1 := h []
  obtain ⟨q, h2, h3, _⟩ := hc.front _ _ _ h1
  exact h2 (List.append_eq_nil_iff.mp h3.symm).1

theorem u64_iff (bs : Bytes) (v : UInt64) (rest : Bytes) :
    u64.dec bs = .ok (v, rest) ↔ ∃ p, IsInt v.toNat p ∧ bs = p ++ rest := by
  simp only [u64]
  constructor
  · intro h
    split at h
    · cases h
    · next n buf hd =>
      cases h
      obtain ⟨p, h1, h2, h3⟩ := decodeInt_iff.mp hd
      refine ⟨p, ?_, h2⟩
      rw [UInt64.toNat_ofNat_of_lt' (by simpa using h3)]
      exact h1
  · rintro ⟨p, h1, h2⟩
    have hv : v.toNat < 256 ^ 8 := by have := v.toNat_lt; omega
    rw [decodeInt_iff.mpr ⟨p, h1, h2, hv⟩]
    simp

theorem vec_length {c : Codec α} (h : ∀ x, c.len x = (c.enc x).length) (xs : List α) :
    total c xs = ((xs.map c.enc).flatten).length := by
  unfold total
  induction xs with
  | nil => rfl
  | cons x xs ih => simp only [List.map_cons, List.sum_cons, List.flatten_cons, List.length_append, ih, h]

theorem vec_pieces {c : Codec α} {R : α → Bytes → Prop} : ∀ (xs : List α), (∀ x ∈ xs, R x (c.enc x)) →
    Pieces R xs ((xs.map c.enc).flatten)
  | [], _ => .nil
  | x :: xs, h => .cons (h x (by simp)) (vec_pieces xs fun y hy => h y (by simp [hy]))

theorem vec_enc {c : Codec α} {R : α → Bytes → Prop} (h : ∀ x, c.len x = (c.enc x).length) {xs : List α}
    (hr : ∀ x ∈ xs, R x (c.enc x)) (hl : total c xs < 256 ^ 8) : IsListOf R xs ((vec c).enc xs) := by
  refine ⟨_, vec_pieces xs hr, Header.encode ⟨true, total c xs⟩, ?_, rfl⟩
  rw [← vec_length h]
  exact (prefix_encode (list := true)).mpr ⟨rfl, hl⟩

theorem vec_len {c : Codec α} (h : ∀ x, c.len x = (c.enc x).length) (xs : List α) :
    (vec c).len xs = ((vec c).enc xs).length := by
  simp only [vec, List.length_append, header_encode_length, ← vec_length h]

variable (env : Env Ty St Log Hd Tx Rc Wd)

theorem receipt_iff (hf : env.Faithful) (bs : Bytes) (r : Receipt Ty St Log) (rest : Bytes) :
    Receipt.decode env bs = .ok (r, rest) ↔ ∃ p, IsReceipt env r p ∧ bs = p ++ rest := by
  have hlog := vec_iff (c := env.log) (R := env.log.Reads) hf.log.iff fun _ _ h => hf.log.ne h
  constructor
  · intro h
    unfold Receipt.decode at h
    cases h1 : Header.decode bs with
    | error e => rw [h1] at h; cases h
    | ok x =>
      obtain ⟨⟨l, n⟩, b0⟩ := x
      rw [h1] at h
      cases l with
      | false => cases h
      | true =>
        cases h2 : env.txType.dec b0 with
        | error e => simp [bind, Except.bind, h2, pure, Except.pure] at h
        | ok x =>
          obtain ⟨ty, b1⟩ := x
          cases h3 : env.status.dec b1 with
          | error e => simp [bind, Except.bind, h2, h3, pure, Except.pure] at h
          | ok x =>
            obtain ⟨st, b2⟩ := x
            cases h4 : u64.dec b2 with
            | error e => simp [bind, Except.bind, h2, h3, h4, pure, Except.pure] at h
            | ok x =>
              obtain ⟨gas, b3⟩ := x
              cases h5 : (vec env.log).dec b3 with
              | error e => simp [bind, Except.bind, h2, h3, h4, h5, pure, Except.pure] at h
              | ok x =>
                obtain ⟨logs, b4⟩ := x
                simp only [bind, Except.bind, h2, h3, h4, h5, pure, Except.pure, Bool.not_true, Bool.false_eq_true, if_false] at h
                split at h
                · cases h
                · next hlen =>
                  cases h
                  obtain ⟨q, hq, rfl, _⟩ := decode_list.mp h1
                  obtain ⟨a, ha, rfl⟩ := (hf.txType.iff _ _ _).mp h2
                  obtain ⟨b, hb, rfl⟩ := (hf.status.iff _ _ _).mp h3
                  obtain ⟨c, hc, rfl⟩ := (u64_iff _ _ _).mp h4
                  obtain ⟨d, hd, rfl⟩ := (hlog _ _ _).mp h5
                  have hn : n = (a ++ b ++ c ++ d).length := by
                    simp only [List.length_append] at hlen ⊢
                    omega
                  rw [hn] at hq
                  exact ⟨q ++ (a ++ b ++ c ++ d), ⟨a, b, c, d, ha, hb, hc, hd, q, hq, rfl⟩, by simp [List.append_assoc]⟩
  · rintro ⟨p, ⟨a, b, c, d, ha, hb, hc, hd, q, hq, rfl⟩, rfl⟩
    unfold Receipt.decode
    rw [List.append_assoc, decode_list.mpr ⟨q, hq, rfl, by simp⟩]
    have e1 : env.txType.dec (a ++ b ++ c ++ d ++ rest) = .ok (r.txType, b ++ (c ++ (d ++ rest))) := by
      simp only [List.append_assoc]; exact ha _
    have e2 : env.status.dec (b ++ (c ++ (d ++ rest))) = .ok (r.status, c ++ (d ++ rest)) := hb _
    have e3 : u64.dec (c ++ (d ++ rest)) = .ok (r.gasUsed, d ++ rest) := (u64_iff _ _ _).mpr ⟨c, hc, rfl⟩
    have e4 : (vec env.log).dec (d ++ rest) = .ok (r.logs, rest) := (hlog _ _ _).mpr ⟨d, hd, rfl⟩
    simp only [bind, Except.bind, e1, e2, e3, e4, pure, Except.pure, Bool.not_true, Bool.false_eq_true, if_false]
    rw [if_neg (by simp only [List.length_append]; omega)]

theorem u64_len (v : UInt64) : u64.len v = (u64.enc v).length := encodeInt_length.symm

theorem receipt_len (hf : env.Faithful) (r : Receipt Ty St Log) : r.length env = (r.encode env).length := by
  simp only [Receipt.length, Receipt.encode, List.length_append, header_encode_length]
  simp only [Receipt.header, ← hf.txType.length, ← hf.status.length, ← u64_len, ← vec_len hf.log.length]
  omega

theorem receipt_enc (hf : env.Faithful) {r : Receipt Ty St Log} (hl : (r.encode env).length < 256 ^ 8) :
    IsReceipt env r (r.encode env) := by
  have hlen := receipt_len env hf r
  have h1 : (r.header env).length < 256 ^ 8 := by unfold Receipt.length at hlen; omega
  have h2 : total env.log r.logs < 256 ^ 8 := by
    simp only [Receipt.header, vec] at h1
    omega
  refine ⟨_, _, _, _, hf.txType.reads _, hf.status.reads _, encodeInt_int ?_, vec_enc hf.log.length
    (fun x _ => hf.log.reads x) h2, (r.header env).encode, ?_, ?_⟩
  · exact r.gasUsed.toNat_lt
  · have e := (prefix_encode (list := true)).mpr ⟨rfl, h1⟩
    simp only [if_true, Receipt.header] at e
    simp only [List.length_append, ← hf.txType.length, ← hf.status.length, ← vec_len hf.log.length]
    have e2 : (encodeInt r.gasUsed.toNat).length = u64.len r.gasUsed := encodeInt_length
    rw [e2]
    exact e
  · simp only [Receipt.encode, List.append_assoc, u64]

theorem receipt_ne {r : Receipt Ty St Log} {p : Bytes} (h : IsReceipt env r p) : p ≠ [] := by
  obtain ⟨_, _, _, _, _, _, _, _, h⟩ := h
  exact list_ne h

theorem receipts_iff (hf : env.Faithful) (bs : Bytes) (rs : List (Receipt Ty St Log)) (rest : Bytes) :
    (receipts env).dec bs = .ok (rs, rest) ↔ ∃ p, IsListOf (IsReceipt env) rs p ∧ bs = p ++ rest :=
  vec_iff (receipt_iff env hf) (fun _ _ => receipt_ne env) bs rs rest

theorem mem_total {c : Codec α} {xs : List α} {x : α} (hx : x ∈ xs) : c.len x ≤ total c xs := by
  unfold total
  induction xs with
  | nil => cases hx
  | cons y xs ih =>
    simp only [List.map_cons, List.sum_cons]
    rcases List.mem_cons.mp hx with rfl | hx
    · omega
    · have := ih hx; omega

theorem receipts_enc (hf : env.Faithful) {rs : List (Receipt Ty St Log)} (hl : ((receipts env).enc rs).length < 256 ^ 8) :
    IsListOf (IsReceipt env) rs ((receipts env).enc rs) := by
  have hlen := vec_len (c := { enc := Receipt.encode env, len := Receipt.length env, dec := Receipt.decode env })
    (receipt_len env hf) rs
  have h1 : total { enc := Receipt.encode env, len := Receipt.length env, dec := Receipt.decode env } rs < 256 ^ 8 := by
    unfold receipts at hl
    rw [← hlen] at hl
    simp only [vec] at hl
    omega
  refine vec_enc (receipt_len env hf) (fun r hr => receipt_enc env hf ?_) h1
  have := mem_total (c := { enc := Receipt.encode env, len := Receipt.length env, dec := Receipt.decode env }) hr
  simp only at this
  rw [receipt_len env hf] at this
  omega

theorem exact_iff {c : Codec α} {bs : Bytes} {x : α} : (decodeExact c bs).toOption = some x ↔ c.dec bs = .ok (x, []) := by
  unfold decodeExact
  cases h : c.dec bs with
  | error e => simp [Except.toOption]
  | ok y =>
    obtain ⟨y, rest⟩ := y
    cases rest with
    | nil => simp [Except.toOption]
    | cons _ _ => simp [Except.toOption]

end Verif.HistoryContent
