import Verif.Props.LcJsonSpec
import Verif.Props.Hex
import Verif.Lemmas.BridgeCli

/-! Helper lemmas about the JSON of the light client's data: every combinator reads exactly what the specification says. -/

namespace Verif.LcJson
open Verif.E2store (Res)
open Verif.SszT (Vec BList BytesN)
open Verif.JsonRpc (Json)
open Verif.BeaconValue
open Verif.LightClient (Header)
open Verif.Props.BridgeSpec (Numeral)
open Verif.Props.LcJsonSpec
open scoped Verif.Provider

/-- What holds of a part of a document holds of the document. -/
structure Hered (B : Json → Prop) : Prop where
  arr : ∀ v vs, v ∈ vs → B v → B (.arr vs)
  obj : ∀ n v ms, (n, v) ∈ ms → B v → B (.obj ms)

structure Good (B : Json → Prop) {α : Type} (t : JTy α) (P : Json → α → Prop) : Prop where
  exact : ∀ j x, t.de j = .ok x ↔ P j x
  writes : ∀ x, P (t.ser x) x
  panics : ∀ j, t.de j = .panic → B j

structure GoodM (B : Json → Prop) {α : Type} (r : Members α) (M : α → List Field) : Prop where
  names : ∀ x, (M x).map (·.1) = r.names
  exact : ∀ look x, r.de look = .ok x ↔ ∀ m ∈ M x, m.2 (look m.1)
  writes : ∀ x, Each (fun v (m : Field) => m.2 (some v)) (r.ser x) (M x)
  panics : ∀ look, r.de look = .panic → ∃ n v, look n = some v ∧ B v

theorem bind_ok {α β} {r : Res α} {f : α → Res β} {b : β} : r.bind f = .ok b ↔ ∃ a, r = .ok a ∧ f a = .ok b := by
  cases r <;> simp [Res.bind]

theorem map_ok {α β} {r : Res α} {f : α → β} {b : β} : r.map f = .ok b ↔ ∃ a, r = .ok a ∧ f a = b := by
  cases r <;> simp [Res.map, Res.bind]

theorem bind_panic {α β} {r : Res α} {f : α → Res β} : r.bind f = .panic ↔ r = .panic ∨ ∃ a, r = .ok a ∧ f a = .panic := by
  cases r <;> simp [Res.bind]

theorem map_panic {α β} {r : Res α} {f : α → β} : r.map f = .panic ↔ r = .panic := by
  cases r <;> simp [Res.map, Res.bind]

theorem ofOption_ok {α} {o : Option α} {a : α} : ofOption o = .ok a ↔ o = some a := by cases o <;> simp [ofOption]
theorem ofOption_panic {α} {o : Option α} : ofOption o ≠ .panic := by cases o <;> simp [ofOption]
theorem ofExcept_ok {ε α} {o : Except ε α} {a : α} : ofExcept o = .ok a ↔ o = .ok a := by cases o <;> simp [ofExcept]
theorem ofExcept_panic {ε α} {o : Except ε α} : ofExcept o ≠ .panic := by cases o <;> simp [ofExcept]

theorem sized_ok {n : Nat} {bs : Bytes} {x : BytesN n} : sized n bs = .ok x ↔ bs = x.1 := by
  unfold sized
  constructor
  · intro h
    split at h
    · cases h; rfl
    · cases h
  · rintro rfl
    rw [dif_pos x.2]

theorem sized_panic {n : Nat} {bs : Bytes} : sized n bs ≠ .panic := by
  unfold sized; split <;> simp

/-! ## Hex digits -/

theorem hexDigits_iff : ∀ (ds : List Char) (bs : Bytes), Hex.hexBodyDecode ds = .ok bs ↔ HexDigits ds bs
  | [], bs => by
    constructor
    · intro h; cases h; exact .nil
    · intro h; cases h; rfl
  | [a], bs => by
    constructor
    · intro h; cases h
    · intro h; cases h
  | a :: b :: ds, bs => by
    have ih := hexDigits_iff ds
    rw [Hex.hexBodyDecode]
    constructor
    · intro h
      split at h
      · next x y ha hb =>
        cases hd : Hex.hexBodyDecode ds with
        | error e => simp [hd] at h
        | ok r =>
          simp [hd] at h
          subst h
          refine .cons ha hb ?_ ((ih r).mp hd)
          have h1 := Props.digitVal_lt ha
          have h2 := Props.digitVal_lt hb
          simp
          omega
      · cases h
    · intro h
      cases h with
      | cons ha hb hx rest =>
        rw [ha, hb, (ih _).mpr rest]
        simp only []
        congr 2
        apply UInt8.toNat_inj.mp
        rw [hx]
        have h1 := Props.digitVal_lt ha
        have h2 := Props.digitVal_lt hb
        simp
        omega

theorem hexBody_digits (bs : Bytes) : HexDigits (Hex.hexBody Hex.digit bs) bs :=
  (hexDigits_iff _ _).mp (Props.decode_body _ (fun n => (Props.digitVal_digit n).1) bs)

theorem not_hex_x (ds : List Char) (bs : Bytes) : ¬ HexDigits ('0' :: 'x' :: ds) bs := by
  intro h
  cases h with
  | cons ha hb => exact absurd hb (by simp [Hex.digitVal])

theorem anyHex_iff (s : List Char) (bs : Bytes) : Hex.hexDecode s = .ok bs ↔ IsAnyHex (.str s) bs := by
  unfold IsAnyHex
  constructor
  · intro h
    match s with
    | [] => cases h
    | [_] => cases h
    | a :: b :: ds =>
      rw [Hex.hexDecode] at h
      split at h
      · next hab =>
        obtain ⟨rfl, hb⟩ := hab
        exact ⟨b, ds, hb, (hexDigits_iff _ _).mp h, rfl⟩
      · cases h
  · rintro ⟨c, ds, hc, hd, he⟩
    cases he
    rw [Hex.hexDecode, if_pos ⟨rfl, hc⟩]
    exact (hexDigits_iff _ _).mpr hd

/-! ## Values -/

variable {B : Json → Prop}

theorem usual_num (j : Json) (n : Nat) (h : j = .num n) (hn : n < 2 ^ 64) : Usual j n := ⟨hn, .inl h⟩

theorem u64_nat (n : Nat) (h : n < 2 ^ 64) (x : UInt64) : UInt64.ofNat n = x ↔ n = x.toNat := by
  constructor
  · rintro rfl
    rw [UInt64.toNat_ofNat']
    exact (Nat.mod_eq_of_lt h).symm
  · rintro rfl
    exact UInt64.ofNat_toNat

theorem good_u64 (lib : Lib) : Good B (u64 lib) (IsNumber lib) where
  exact j x := by
    unfold IsNumber
    cases j with
    | num n =>
      simp only [u64]
      by_cases hn : n < 2 ^ 64
      · rw [if_pos hn, Res.ok.injEq, u64_nat n hn]
        constructor
        · rintro rfl
          exact .inl ⟨hn, .inl rfl⟩
        · rintro (⟨_, h | ⟨t, h, _⟩⟩ | ⟨h, _⟩)
          · exact Json.num.inj h
          · cases h
          · exact absurd ⟨hn, .inl rfl⟩ (h n)
      · rw [if_neg hn, ofOption_ok]
        constructor
        · intro h
          refine .inr ⟨?_, h⟩
          rintro m ⟨hm, h | ⟨t, h, _⟩⟩
          · cases h; exact hn hm
          · cases h
        · rintro (⟨hx, h | ⟨t, h, _⟩⟩ | ⟨_, h⟩)
          · cases h; exact absurd hx hn
          · cases h
          · exact h
    | str s =>
      simp only [u64]
      cases hp : HeadGen.parseU64 s with
      | some n =>
        have hN := (BridgeCli.parseU64_iff s n).mp hp
        have hn : n < 2 ^ 64 := by obtain ⟨_, _, _, _, h, _⟩ := hN; exact h
        simp only [Res.ok.injEq]
        rw [u64_nat n hn]
        constructor
        · rintro rfl
          exact .inl ⟨hn, .inr ⟨s, rfl, hN⟩⟩
        · rintro (⟨_, h | ⟨t, h, ht⟩⟩ | ⟨h, _⟩)
          · cases h
          · cases h
            have := (BridgeCli.parseU64_iff s _).mpr ht
            rw [hp] at this
            exact Option.some.inj this
          · exact absurd ⟨hn, .inr ⟨s, rfl, hN⟩⟩ (h n)
      | none =>
        simp only [ofOption_ok]
        have hno : ∀ m, ¬ Usual (.str s) m := by
          rintro m ⟨hm, h | ⟨t, h, ht⟩⟩
          · cases h
          · cases h
            rw [(BridgeCli.parseU64_iff s _).mpr ht] at hp
            cases hp
        exact ⟨fun h => .inr ⟨hno, h⟩, fun h => h.elim (fun h => absurd h (hno _)) (·.2)⟩
    | null | bool _ | arr _ | obj _ =>
      simp only [u64, ofOption_ok]
      refine ⟨fun h => .inr ⟨?_, h⟩, ?_⟩
      · rintro m ⟨_, h | ⟨t, h, _⟩⟩ <;> cases h
      · rintro (⟨_, h | ⟨t, h, _⟩⟩ | h)
        · cases h
        · cases h
        · exact h.2
  writes x := .inl ⟨x.toNat_lt, .inl rfl⟩
  panics j h := by
    exfalso
    revert h
    cases j with
    | num n => simp only [u64]; split <;> simp [ofOption_panic]
    | str s => simp only [u64]; split <;> simp [ofOption_panic]
    | null | bool _ | arr _ | obj _ => simp [u64, ofOption_panic]

theorem good_plain : Good B plainU64 IsPlain where
  exact j x := by
    unfold IsPlain
    cases j with
    | num n =>
      simp only [plainU64, Json.num.injEq]
      have := x.toNat_lt
      by_cases hn : n < 2 ^ 64
      · rw [if_pos hn, Res.ok.injEq, u64_nat n hn]
      · rw [if_neg hn]
        constructor
        · intro h; cases h
        · intro h; omega
    | null | bool _ | arr _ | obj _ | str _ => simp [plainU64]
  writes x := rfl
  panics j h := by
    exfalso
    revert h
    cases j with
    | num n => simp only [plainU64]; split <;> simp
    | null | bool _ | arr _ | obj _ | str _ => simp [plainU64]

theorem strip_iff (s : List Char) (bs : Bytes) : Hex.hexBodyDecode (NodeConfig.stripPrefix s) = .ok bs ↔
    ∃ ds, HexDigits ds bs ∧ (s = ds ∨ s = '0' :: 'x' :: ds) := by
  rw [hexDigits_iff]
  constructor
  · intro h
    unfold NodeConfig.stripPrefix at h
    split at h
    · exact ⟨_, h, .inr rfl⟩
    · exact ⟨_, h, .inl rfl⟩
  · rintro ⟨ds, h, rfl | rfl⟩
    · unfold NodeConfig.stripPrefix
      split
      · exact absurd h (not_hex_x _ _)
      · exact h
    · exact h

theorem good_fixed (lib : Lib) (n : Nat) : Good B (fixed lib n) (IsBytes lib n) where
  exact j x := by
    unfold IsBytes
    cases j with
    | str s =>
      simp only [fixed, bind_ok, ofExcept_ok, sized_ok, Json.str.injEq]
      constructor
      · rintro ⟨bs, h, rfl⟩
        exact .inl ((strip_iff s _).mp h)
      · rintro (h | ⟨h, _⟩)
        · exact ⟨_, (strip_iff s _).mpr h, rfl⟩
        · exact absurd rfl (h s)
    | null | bool _ | arr _ | obj _ | num _ => simp [fixed, ofOption_ok]
  writes x := .inl ⟨_, hexBody_digits x.1, .inr rfl⟩
  panics j h := by
    exfalso
    revert h
    cases j with
    | str s => simp [fixed, bind_panic, ofExcept_panic, sized_panic]
    | null | bool _ | arr _ | obj _ | num _ => simp [fixed, ofOption_panic]

theorem good_word (lib : Lib) : Good B (word lib) (IsWord lib) where
  exact j w := by
    unfold IsWord word mapped
    rw [map_ok]
    have h2 : ∀ x : BytesN 32, wordOf x = w ↔ x = ⟨w.bytes, toBe_length _ _⟩ := by
      intro x
      constructor
      · rintro rfl
        apply Subtype.ext
        have hlt : fromBe x.1 < 2 ^ 256 := by
          have := fromBe_lt x.1
          rw [x.2] at this
          exact this
        show x.1 = (wordOf x).bytes
        rw [Id.bytes, wordOf, BitVec.toNat_ofNat, Nat.mod_eq_of_lt hlt]
        have := toBe_fromBe x.1
        rw [x.2] at this
        exact this.symm
      · rintro rfl
        apply BitVec.eq_of_toNat_eq
        rw [wordOf, BitVec.toNat_ofNat]
        show fromBe (toBe 32 w.toNat) % 2 ^ 256 = w.toNat
        rw [fromBe_toBe]
        have := w.isLt
        omega
    constructor
    · rintro ⟨x, hx, hw⟩
      rw [(h2 x).mp hw] at hx
      exact ((good_fixed (B := B) lib 32).exact j _).mp hx
    · intro h
      exact ⟨_, ((good_fixed (B := B) lib 32).exact j _).mpr h, (h2 _).mpr rfl⟩
  writes w := (good_fixed (B := B) lib 32).writes (wordBytes w)
  panics j h := (good_fixed lib 32).panics j (map_panic.mp h)

theorem prefixed_iff (j : Json) (bs : Bytes) : prefixedHex j = .ok bs ↔ IsHex j bs := by
  unfold IsHex prefixedHex
  split
  · next ds =>
    rw [ofExcept_ok, hexDigits_iff]
    constructor
    · intro h; exact ⟨_, h, rfl⟩
    · rintro ⟨ds', h, he⟩
      cases he
      exact h
  · next hn =>
    constructor
    · intro h; cases h
    · rintro ⟨ds, _, he⟩
      exact absurd he (hn ds)

theorem prefixed_panic (j : Json) : prefixedHex j ≠ .panic := by
  unfold prefixedHex
  split <;> simp [ofExcept_panic]

theorem good_hexFixedVec (n : Nat) : Good B (hexFixedVec n) (fun j x => IsHex j x.1) where
  exact j x := by
    simp only [hexFixedVec, bind_ok, sized_ok]
    constructor
    · rintro ⟨bs, h, rfl⟩; exact (prefixed_iff _ _).mp h
    · intro h; exact ⟨_, (prefixed_iff _ _).mpr h, rfl⟩
  writes x := ⟨_, hexBody_digits x.1, rfl⟩
  panics j h := by
    exfalso
    revert h
    simp [hexFixedVec, bind_panic, prefixed_panic, sized_panic]

theorem good_hexVarList (n : Nat) : Good B (hexVarList n) (fun j x => IsHex j x.1) where
  exact j x := by
    simp only [hexVarList, bind_ok]
    constructor
    · rintro ⟨bs, h, hx⟩
      split at hx
      · cases hx; exact (prefixed_iff _ _).mp h
      · cases hx
    · intro h; exact ⟨_, (prefixed_iff _ _).mpr h, by rw [dif_pos x.2]⟩
  writes x := ⟨_, hexBody_digits x.1, rfl⟩
  panics j h := by
    exfalso
    simp only [hexVarList, bind_panic, prefixed_panic, false_or] at h
    obtain ⟨a, _, h⟩ := h
    split at h <;> cases h

theorem digits_iff (s : List Char) (n : Nat) : (if s = [] then none else HeadGen.parseDigits s 0) = some n ↔
    Digits s ∧ n = s.foldl (fun a c => 10 * a + (c.toNat - '0'.toNat)) 0 := by
  unfold Digits
  by_cases hs : s = []
  · simp [hs]
  · rw [if_neg hs, BridgeCli.parseDigits_iff]
    simp [hs]

theorem big_nat (n : Nat) (h : n < 2 ^ 256) (x : BitVec 256) : BitVec.ofNat 256 n = x ↔ n = x.toNat := by
  constructor
  · rintro rfl
    rw [BitVec.toNat_ofNat]
    exact (Nat.mod_eq_of_lt h).symm
  · rintro rfl
    exact BitVec.ofNat_toNat _ _ |>.trans (BitVec.setWidth_eq _)

theorem good_big (lib : Lib) : Good B (bigDecimal lib) (IsBig lib) where
  exact j x := by
    unfold IsBig
    cases j with
    | str s =>
      simp only [bigDecimal, Json.str.injEq]
      cases hp : (if s = [] then none else HeadGen.parseDigits s 0) with
      | some n =>
        have hd := (digits_iff s n).mp hp
        simp only []
        constructor
        · intro h
          split at h
          · next hn =>
            rw [Res.ok.injEq, big_nat n hn] at h
            exact ⟨s, rfl, .inl ⟨hd.1, h ▸ hd.2⟩⟩
          · cases h
        · rintro ⟨s', rfl, ⟨_, h⟩ | ⟨h, _⟩⟩
          · have he : n = x.toNat := hd.2.trans h.symm
            have hn : n < 2 ^ 256 := he ▸ x.isLt
            rw [if_pos hn, Res.ok.injEq, big_nat n hn]
            exact he
          · exact absurd hd.1 h
      | none =>
        have hd : ¬ Digits s := fun h => by
          have := (digits_iff s _).mpr ⟨h, rfl⟩
          rw [hp] at this
          cases this
        simp only [ofOption_ok]
        constructor
        · intro h; exact ⟨s, rfl, .inr ⟨hd, h⟩⟩
        · rintro ⟨s', rfl, ⟨h, _⟩ | ⟨_, h⟩⟩
          · exact absurd h hd
          · exact h
    | null | bool _ | arr _ | obj _ | num _ => simp [bigDecimal]
  writes x := by
    obtain ⟨h1, h2, h3, _, _⟩ := Props.decimal_spec x.toNat
    refine ⟨_, rfl, .inl ⟨⟨fun hn => by rw [hn] at h3; simp at h3, h1⟩, ?_⟩⟩
    have hv : List.foldl (fun a c => a * 10 + (c.toNat - 48)) 0 (HeadGen.decimal x.toNat) = x.toNat := h2
    refine hv.symm.trans ?_
    congr 1
    funext a c
    rw [Nat.mul_comm]
    rfl
  panics j h := by
    exfalso
    revert h
    cases j with
    | str s =>
      simp only [bigDecimal]
      split
      · split <;> simp
      · simp [ofOption_panic]
    | null | bool _ | arr _ | obj _ | num _ => simp [bigDecimal]

theorem resize_eq (bs : Bytes) (n : Nat) : (resize n bs).1 = (bs ++ List.replicate n 0).take n := by
  simp only [resize, List.take_append, List.take_replicate]
  congr 2
  omega

theorem good_pubkey : Good B pubkey IsKey where
  exact j x := by
    unfold IsKey
    cases j with
    | str s =>
      simp only [pubkey, map_ok, ofExcept_ok, anyHex_iff]
      constructor
      · rintro ⟨bs, h, rfl⟩; exact ⟨bs, h, resize_eq bs 48⟩
      · rintro ⟨bs, h, he⟩; exact ⟨bs, h, Subtype.ext ((resize_eq bs 48).trans he.symm)⟩
    | null | bool _ | arr _ | obj _ | num _ => simp [pubkey, IsAnyHex]
  writes x := by
    refine ⟨x.1, ⟨'x', _, .inl rfl, hexBody_digits x.1, rfl⟩, ?_⟩
    rw [List.take_append_of_le_length (by rw [x.2]; omega), List.take_of_length_le (by rw [x.2]; omega)]
  panics j h := by
    exfalso
    revert h
    cases j with
    | str s => simp [pubkey, map_panic, ofExcept_panic]
    | null | bool _ | arr _ | obj _ | num _ => simp [pubkey]

theorem good_signature (hB : ∀ j bs, IsAnyHex j bs → bs.length ≠ 96 → B j) : Good B signature (fun j x => IsAnyHex j x.1) where
  exact j x := by
    cases j with
    | str s =>
      simp only [signature, bind_ok, ofExcept_ok, anyHex_iff]
      constructor
      · rintro ⟨bs, h, hx⟩
        split at hx
        · cases hx; exact h
        · cases hx
      · intro h; exact ⟨_, h, by rw [dif_pos x.2]⟩
    | null | bool _ | arr _ | obj _ | num _ => simp [signature, IsAnyHex]
  writes x := ⟨'x', _, .inl rfl, hexBody_digits x.1, rfl⟩
  panics j h := by
    cases j with
    | str s =>
      simp only [signature, bind_panic, ofExcept_panic, false_or, ofExcept_ok] at h
      obtain ⟨bs, h1, h2⟩ := h
      refine hB _ bs ((anyHex_iff _ _).mp h1) ?_
      intro hl
      rw [dif_pos hl] at h2
      cases h2
    | null | bool _ | arr _ | obj _ | num _ => simp [signature] at h

/-! ## Arrays, options -/

theorem readAll_ok {α} {t : JTy α} {P : Json → α → Prop} (ht : ∀ j x, t.de j = .ok x ↔ P j x) : ∀ (js : List Json) (xs : List α),
    readAll t js = .ok xs ↔ Each P js xs
  | [], xs => by
    constructor
    · intro h; cases h; exact .nil
    · intro h; cases h; rfl
  | j :: js, xs => by
    simp only [readAll, bind_ok, map_ok, readAll_ok ht js]
    constructor
    · rintro ⟨x, hx, ys, hy, rfl⟩
      exact .cons ((ht _ _).mp hx) hy
    · intro h
      cases h with
      | cons h r => exact ⟨_, (ht _ _).mpr h, _, r, rfl⟩

theorem readAll_panic {α} {t : JTy α} : ∀ (js : List Json), readAll t js = .panic → ∃ j ∈ js, t.de j = .panic
  | [], h => by cases h
  | j :: js, h => by
    rw [readAll, bind_panic] at h
    rcases h with h | ⟨x, _, h⟩
    · exact ⟨j, by simp, h⟩
    · obtain ⟨j', h1, h2⟩ := readAll_panic js (map_panic.mp h)
      exact ⟨j', by simp [h1], h2⟩

theorem each_writes {α} {t : JTy α} {P : Json → α → Prop} (ht : Good B t P) : ∀ xs : List α, Each P (xs.map t.ser) xs
  | [] => .nil
  | x :: xs => .cons (ht.writes x) (each_writes ht xs)

theorem good_vector (hB : Hered B) {α} {t : JTy α} {P : Json → α → Prop} (ht : Good B t P) (n : Nat) :
    Good B (vector t n) (fun j x => IsArray P j x.1) where
  exact j x := by
    unfold IsArray
    cases j with
    | arr js =>
      simp only [vector, bind_ok, readAll_ok ht.exact, Json.arr.injEq]
      constructor
      · rintro ⟨xs, h, hx⟩
        split at hx
        · cases hx; exact ⟨js, rfl, h⟩
        · cases hx
      · rintro ⟨js', rfl, h⟩
        exact ⟨_, h, by rw [dif_pos x.2]⟩
    | null | bool _ | str _ | obj _ | num _ => simp [vector]
  writes x := ⟨_, rfl, each_writes ht x.1⟩
  panics j h := by
    cases j with
    | arr js =>
      simp only [vector, bind_panic] at h
      rcases h with h | ⟨xs, _, h⟩
      · obtain ⟨j, h1, h2⟩ := readAll_panic js h
        exact hB.arr _ _ h1 (ht.panics j h2)
      · split at h <;> cases h
    | null | bool _ | str _ | obj _ | num _ => simp [vector] at h

theorem good_option {α} {t : JTy α} {P : Json → α → Prop} (ht : Good B t P) (hs : ∀ x, t.ser x ≠ .null) :
    Good B (option t) (IsOption P) where
  exact j x := by
    cases j with
    | null =>
      cases x <;> simp [option, IsOption]
    | arr _ | bool _ | str _ | obj _ | num _ =>
      cases x <;> simp [option, IsOption, map_ok, ht.exact]
  writes x := by
    cases x with
    | none => rfl
    | some a => exact ⟨hs a, ht.writes a⟩
  panics j h := by
    cases j with
    | null => simp [option] at h
    | arr _ | bool _ | str _ | obj _ | num _ => exact ht.panics _ (map_panic.mp h)

/-! ## Structures -/

theorem goodm_nil : GoodM B Members.nil (fun _ => []) where
  names _ := rfl
  exact look x := by simp [Members.nil]
  writes _ := .nil
  panics look h := by cases h

theorem goodm_cons {α β} {name : List Char} {t : JTy α} {P : Json → α → Prop} {r : Members β} {M : β → List Field}
    (ht : Good B t P) (hr : GoodM B r M) :
    GoodM B (.cons name t r) (fun x => needed name (P · x.1) :: M x.2) where
  names x := by simp [Members.cons, needed, hr.names]
  exact look x := by
    simp only [Members.cons, List.mem_cons, forall_eq_or_imp, needed]
    cases hl : look name with
    | none => simp
    | some j =>
      simp only [bind_ok, map_ok, ht.exact, hr.exact]
      constructor
      · rintro ⟨a, h1, b, h2, rfl⟩
        exact ⟨⟨j, rfl, h1⟩, h2⟩
      · rintro ⟨⟨v, hv, h1⟩, h2⟩
        cases hv
        exact ⟨_, h1, _, h2, rfl⟩
  writes x := .cons ⟨_, rfl, ht.writes x.1⟩ (hr.writes x.2)
  panics look h := by
    simp only [Members.cons] at h
    cases hl : look name with
    | none => simp [hl] at h
    | some j =>
      simp only [hl, bind_panic, map_panic] at h
      rcases h with h | ⟨_, _, h⟩
      · exact ⟨name, j, hl, ht.panics j h⟩
      · exact hr.panics look h

theorem goodm_opt {α β} {name : List Char} {t : JTy α} {P : Json → α → Prop} {r : Members β} {M : β → List Field}
    (ht : Good B t P) (hs : ∀ x, t.ser x ≠ .null) (hr : GoodM B r M) :
    GoodM B (.opt name t r) (fun x => Props.LcJsonSpec.optional name P x.1 :: M x.2) where
  names x := by simp [Members.opt, Props.LcJsonSpec.optional, hr.names]
  exact look x := by
    simp only [Members.opt, List.mem_cons, forall_eq_or_imp, Props.LcJsonSpec.optional, bind_ok, map_ok, (good_option ht hs).exact, hr.exact]
    constructor
    · rintro ⟨a, h1, b, h2, rfl⟩
      exact ⟨h1, h2⟩
    · rintro ⟨h1, h2⟩
      exact ⟨_, h1, _, h2, rfl⟩
  writes x := .cons ((good_option ht hs).writes x.1) (hr.writes x.2)
  panics look h := by
    simp only [Members.opt, bind_panic, map_panic] at h
    rcases h with h | ⟨_, _, h⟩
    · cases hl : look name with
      | none => simp [hl, option] at h
      | some j =>
        rw [hl] at h
        exact ⟨name, j, hl, (good_option ht hs).panics j h⟩
    · exact hr.panics look h

theorem lookup_filter (ms : List (List Char × Json)) (n : List Char) :
    ms.lookup n = ((ms.filter fun m => m.1 == n).head?).map (·.2) := by
  induction ms with
  | nil => rfl
  | cons m ms ih =>
    obtain ⟨k, v⟩ := m
    by_cases h : k = n
    · subst h; simp [List.lookup]
    · have h1 : (n == k) = false := by simp [Ne.symm h]
      have h2 : (k == n) = false := by simp [h]
      rw [List.lookup, h1, List.filter_cons]
      simp only [h2]
      exact ih

theorem lookup_mem {ms : List (List Char × Json)} {n : List Char} {v : Json} (h : ms.lookup n = some v) : (n, v) ∈ ms := by
  induction ms with
  | nil => cases h
  | cons m ms ih =>
    obtain ⟨k, w⟩ := m
    rw [List.lookup] at h
    split at h
    · next he =>
      cases h
      rw [beq_iff_eq.mp he]
      simp
    · exact List.mem_cons_of_mem _ (ih h)

theorem field_once {ms : List (List Char × Json)} (f : Field) (h : (ms.filter fun m => m.1 == f.1).length ≤ 1) :
    f.2 (ms.lookup f.1) ↔ (ms.filter (fun m => m.1 == f.1) = [] ∧ f.2 none ∨
      ∃ v, ms.filter (fun m => m.1 == f.1) = [(f.1, v)] ∧ f.2 (some v)) := by
  rw [lookup_filter]
  have hm : ∀ m ∈ ms.filter (fun m => m.1 == f.1), m.1 = f.1 := fun m hm => by simpa using (List.mem_filter.mp hm).2
  revert h hm
  generalize ms.filter (fun m => m.1 == f.1) = l
  intro h hm
  match l, h, hm with
  | [], _, _ => simp
  | [(k, v)], _, hm =>
    have := hm (k, v) (by simp)
    simp only at this
    subst this
    simp
  | _ :: _ :: _, h, _ => simp at h

theorem zip_lookup_each : ∀ (fields : List Field) (vs : List Json), (fields.map (·.1)).Nodup →
    ((vs.length = fields.length ∧ ∀ f ∈ fields, f.2 (((fields.map (·.1)).zip vs).lookup f.1)) ↔
      Each (fun v (f : Field) => f.2 (some v)) vs fields)
  | [], vs, _ => by
    constructor
    · rintro ⟨h, _⟩
      cases List.length_eq_zero_iff.mp h
      exact .nil
    · intro h; cases h; simp
  | f :: fs, [], _ => by
    constructor
    · rintro ⟨h, _⟩; simp at h
    · intro h; cases h
  | f :: fs, v :: vs, hn => by
    have hn' := List.nodup_cons.mp (by simpa using hn : (f.1 :: fs.map (·.1)).Nodup)
    have ih := zip_lookup_each fs vs hn'.2
    have hrest : ∀ g ∈ fs, (((f :: fs).map (·.1)).zip (v :: vs)).lookup g.1 = ((fs.map (·.1)).zip vs).lookup g.1 := by
      intro g hg
      have : (g.1 == f.1) = false := by
        rw [beq_eq_false_iff_ne]
        intro he
        exact hn'.1 (he ▸ List.mem_map_of_mem hg)
      simp [List.lookup, this]
    have hfirst : (((f :: fs).map (·.1)).zip (v :: vs)).lookup f.1 = some v := by simp [List.lookup]
    constructor
    · rintro ⟨hl, h⟩
      refine .cons (hfirst ▸ h f (by simp)) (ih.mp ⟨by simpa using hl, fun g hg => ?_⟩)
      rw [← hrest g hg]
      exact h g (List.mem_cons_of_mem _ hg)
    · intro h
      cases h with
      | cons h r =>
        obtain ⟨hl, hr⟩ := ih.mpr r
        refine ⟨by simp [hl], ?_⟩
        intro g hg
        rcases List.mem_cons.mp hg with rfl | hg
        · rw [hfirst]; exact h
        · rw [hrest g hg]; exact hr g hg

theorem filter_zip : ∀ (names : List (List Char)) (vs : List Json), names.Nodup → ∀ n,
    ((names.zip vs).filter fun m => m.1 == n).length ≤ 1
  | [], _, _, _ => by simp
  | _ :: _, [], _, _ => by simp
  | k :: ks, v :: vs, hn, n => by
    have hn' := List.nodup_cons.mp hn
    simp only [List.zip_cons_cons, List.filter_cons]
    by_cases h : k = n
    · subst h
      have : (ks.zip vs).filter (fun m => m.1 == k) = [] := by
        rw [List.filter_eq_nil_iff]
        intro m hm he
        have := (List.of_mem_zip (a := m.1) (b := m.2) hm).1
        exact hn'.1 (beq_iff_eq.mp he ▸ this)
      simp [this]
    · rw [if_neg (by simpa using h)]
      exact filter_zip ks vs hn'.2 n

theorem good_struct (hB : Hered B) {α β} {closed : Bool} {r : Members α} {M : α → List Field} {f : α → β} {g : β → α}
    (hr : GoodM B r M) (hn : r.names.Nodup) (hfg : ∀ y, f (g y) = y) (hgf : ∀ x, g (f x) = x) :
    Good B (struct closed r f g) (fun j y => IsObject closed (M (g y)) j) := by
  have hex : ∀ look y, ((r.de look).map f = .ok y) ↔ ∀ m ∈ M (g y), m.2 (look m.1) := by
    intro look y
    rw [map_ok]
    constructor
    · rintro ⟨x, h, rfl⟩
      rw [hgf]
      exact (hr.exact _ _).mp h
    · intro h
      exact ⟨g y, (hr.exact _ _).mpr h, hfg y⟩
  have hnames : ∀ y, (M (g y)).map (·.1) = r.names := fun y => hr.names _
  have exact' : ∀ j y, (struct closed r f g).de j = .ok y ↔ IsObject closed (M (g y)) j := by
    intro j y
    unfold IsObject
    cases j with
    | obj ms =>
      simp only [struct, Json.obj.injEq, reduceCtorEq, false_and, exists_false, or_false, exists_eq_left']
      constructor
      · intro h
        split at h
        · cases h
        · next ho =>
          split at h
          · cases h
          · next hc =>
            have h1 := (hex _ _).mp h
            have ho' : ∀ n ∈ r.names, (ms.filter fun m => m.1 == n).length ≤ 1 := by
              intro n hm
              simp only [Bool.not_eq_true, Bool.not_eq_false'] at ho
              have := List.all_eq_true.mp ho n hm
              simpa using this
            refine ⟨fun m hm => (field_once m (ho' _ ?_)).mp (h1 m hm), ?_⟩
            · rw [← hnames y]; exact List.mem_map_of_mem hm
            · intro hcl m hm
              simp only [hcl, Bool.true_and] at hc
              have := fun hh => hc (List.any_eq_true.mpr ⟨m, hm, hh⟩)
              have hmem : m.1 ∈ r.names := by simpa using this
              rw [← hnames y] at hmem
              obtain ⟨f, hf, he⟩ := List.mem_map.mp hmem
              exact ⟨f, hf, he⟩
      · rintro ⟨h1, h2⟩
        have ho' : ∀ m ∈ M (g y), (ms.filter fun x => x.1 == m.1).length ≤ 1 := by
          intro m hm
          rcases h1 m hm with ⟨h, _⟩ | ⟨v, h, _⟩ <;> simp [h]
        have ho : once r.names ms = true := by
          unfold once
          rw [List.all_eq_true]
          intro n hn
          rw [← hnames y] at hn
          obtain ⟨m, hm, rfl⟩ := List.mem_map.mp hn
          simpa using ho' m hm
        rw [ho]
        simp only [Bool.not_true, Bool.false_eq_true, if_false]
        rw [if_neg]
        · exact (hex _ _).mpr fun m hm => (field_once m (ho' m hm)).mpr (h1 m hm)
        · intro hc
          simp only [Bool.and_eq_true] at hc
          obtain ⟨m, hm, hh⟩ := List.any_eq_true.mp hc.2
          obtain ⟨f, hf, he⟩ := h2 hc.1 m hm
          have : m.1 ∈ r.names := by rw [← hnames y, ← he]; exact List.mem_map_of_mem hf
          simp [this] at hh
    | arr vs =>
      simp only [struct, Json.arr.injEq, reduceCtorEq, false_and, exists_false, false_or, exists_eq_left']
      rw [← zip_lookup_each _ _ (by rw [hnames]; exact hn), hnames]
      have hlen : (M (g y)).length = r.names.length := by rw [← hnames y, List.length_map]
      constructor
      · intro h
        split at h
        · next hl => exact ⟨by omega, (hex _ _).mp h⟩
        · cases h
      · rintro ⟨hl, h⟩
        rw [if_pos (by omega)]
        exact (hex _ _).mpr h
    | null | bool _ | str _ | num _ => simp [struct]
  refine ⟨exact', ?_, ?_⟩
  · intro y
    have hw := hr.writes (g y)
    have hz := (zip_lookup_each _ _ (by rw [hnames]; exact hn)).mpr hw
    rw [hnames] at hz
    refine .inl ⟨_, rfl, ?_, ?_⟩
    · intro m hm
      exact (field_once m (filter_zip _ _ hn _)).mp (hz.2 m hm)
    · intro _ m hm
      have := (List.of_mem_zip (a := m.1) (b := m.2) hm).1
      rw [← hnames y] at this
      obtain ⟨f, hf, he⟩ := List.mem_map.mp this
      exact ⟨f, hf, he⟩
  · intro j h
    cases j with
    | obj ms =>
      simp only [struct] at h
      split at h
      · cases h
      · split at h
        · cases h
        · obtain ⟨n, v, h1, h2⟩ := hr.panics _ (map_panic.mp h)
          exact hB.obj n v ms (lookup_mem h1) h2
    | arr vs =>
      simp only [struct] at h
      split at h
      · obtain ⟨n, v, h1, h2⟩ := hr.panics _ (map_panic.mp h)
        exact hB.arr v vs (List.of_mem_zip (lookup_mem h1)).2 h2
      · cases h
    | null | bool _ | str _ | num _ => simp [struct] at h

/-! ## The structures -/

theorem good_header (hB : Hered B) (lib : Lib) : Good B (header lib) (HeaderJson lib) :=
  good_struct hB (goodm_cons (good_u64 lib) <| goodm_cons (good_u64 lib) <| goodm_cons (good_word lib) <|
    goodm_cons (good_word lib) <| goodm_cons (good_word lib) goodm_nil)
    (show List.Nodup [chars% "slot", chars% "proposer_index", chars% "parent_root", chars% "state_root", chars% "body_root"] by decide)
    (fun _ => rfl) (fun _ => rfl)

theorem good_execCapella (hB : Hered B) (lib : Lib) : Good B (execCapella lib) (ExecCapellaJson lib) :=
  good_struct hB (goodm_cons (good_word lib) <| goodm_cons (good_fixed lib 20) <| goodm_cons (good_word lib) <|
    goodm_cons (good_word lib) <| goodm_cons (good_hexFixedVec 256) <| goodm_cons (good_word lib) <| goodm_cons (good_u64 lib) <|
    goodm_cons (good_u64 lib) <| goodm_cons (good_u64 lib) <| goodm_cons (good_u64 lib) <| goodm_cons (good_hexVarList 32) <|
    goodm_cons (good_big lib) <| goodm_cons (good_word lib) <| goodm_cons (good_word lib) <| goodm_cons (good_word lib) goodm_nil)
    (show List.Nodup [chars% "parent_hash", chars% "fee_recipient", chars% "state_root", chars% "receipts_root",
      chars% "logs_bloom", chars% "prev_randao", chars% "block_number", chars% "gas_limit", chars% "gas_used", chars% "timestamp",
      chars% "extra_data", chars% "base_fee_per_gas", chars% "block_hash", chars% "transactions_root", chars% "withdrawals_root"]
      by decide +kernel)
    (fun _ => rfl) (fun _ => rfl)

theorem good_execDeneb (hB : Hered B) (lib : Lib) : Good B (execDeneb lib) (ExecDenebJson lib) :=
  good_struct hB (goodm_cons (good_word lib) <| goodm_cons (good_fixed lib 20) <| goodm_cons (good_word lib) <|
    goodm_cons (good_word lib) <| goodm_cons (good_hexFixedVec 256) <| goodm_cons (good_word lib) <| goodm_cons (good_u64 lib) <|
    goodm_cons (good_u64 lib) <| goodm_cons (good_u64 lib) <| goodm_cons (good_u64 lib) <| goodm_cons (good_hexVarList 32) <|
    goodm_cons (good_big lib) <| goodm_cons (good_word lib) <| goodm_cons (good_word lib) <| goodm_cons (good_word lib) <|
    goodm_cons (good_u64 lib) <| goodm_cons (good_u64 lib) goodm_nil)
    (show List.Nodup [chars% "parent_hash", chars% "fee_recipient", chars% "state_root", chars% "receipts_root",
      chars% "logs_bloom", chars% "prev_randao", chars% "block_number", chars% "gas_limit", chars% "gas_used", chars% "timestamp",
      chars% "extra_data", chars% "base_fee_per_gas", chars% "block_hash", chars% "transactions_root", chars% "withdrawals_root",
      chars% "blob_gas_used", chars% "excess_blob_gas"]
      by decide +kernel)
    (fun _ => rfl) (fun _ => rfl)

theorem good_lcHeader (hB : Hered B) (lib : Lib) : ∀ f, Good B (lcHeader lib f) (LcHeaderJson lib f)
  | .bellatrix =>
    good_struct hB (goodm_cons (good_header hB lib) goodm_nil) (show List.Nodup [chars% "beacon"] by decide)
      (fun _ => rfl) (fun _ => rfl)
  | .capella =>
    good_struct hB (goodm_cons (good_header hB lib) <| goodm_cons (good_execCapella hB lib) <|
      goodm_cons (good_vector hB (good_word lib) 4) goodm_nil)
      (show List.Nodup [chars% "beacon", chars% "execution", chars% "execution_branch"] by decide) (fun _ => rfl) (fun _ => rfl)
  | .deneb =>
    good_struct hB (goodm_cons (good_header hB lib) <| goodm_cons (good_execDeneb hB lib) <|
      goodm_cons (good_vector hB (good_word lib) 4) goodm_nil)
      (show List.Nodup [chars% "beacon", chars% "execution", chars% "execution_branch"] by decide) (fun _ => rfl) (fun _ => rfl)
  | .electra =>
    good_struct hB (goodm_cons (good_header hB lib) <| goodm_cons (good_execDeneb hB lib) <|
      goodm_cons (good_vector hB (good_word lib) 4) goodm_nil)
      (show List.Nodup [chars% "beacon", chars% "execution", chars% "execution_branch"] by decide) (fun _ => rfl) (fun _ => rfl)

theorem good_committee (hB : Hered B) : Good B syncCommittee CommitteeJson :=
  good_struct hB (goodm_cons (good_vector hB good_pubkey 512) <| goodm_cons good_pubkey goodm_nil)
    (show List.Nodup [chars% "pubkeys", chars% "aggregate_pubkey"] by decide) (fun _ => rfl) (fun _ => rfl)

theorem hered_true : Hered (fun _ => True) := ⟨fun _ _ _ _ => trivial, fun _ _ _ _ _ => trivial⟩
theorem hered_false : Hered (fun _ => False) := ⟨fun _ _ _ h => h, fun _ _ _ _ h => h⟩
theorem hered_96 : Hered OtherThan96 :=
  ⟨fun _ _ hm ⟨s, v, bs, h, r⟩ => ⟨s, v, bs, .arr hm h, r⟩, fun _ _ _ hm ⟨s, v, bs, h, r⟩ => ⟨s, v, bs, .obj hm h, r⟩⟩

theorem signature_panic {j : Json} (h : signature.de j = .panic) : ∃ bs, IsAnyHex j bs ∧ bs.length ≠ 96 :=
  (good_signature (B := fun j => ∃ bs, IsAnyHex j bs ∧ bs.length ≠ 96) (fun _ bs h1 h2 => ⟨bs, h1, h2⟩)).panics j h

theorem aggregateMembers_panic {look : List Char → Option Json}
    (h : (Members.cons (chars% "sync_committee_bits") (hexFixedVec 64) <|
      .cons (chars% "sync_committee_signature") signature .nil).de look = .panic) :
    ∃ v bs, look (chars% "sync_committee_signature") = some v ∧ IsAnyHex v bs ∧ bs.length ≠ 96 := by
  simp only [Members.cons] at h
  split at h
  · cases h
  · next u hu =>
    rw [bind_panic] at h
    rcases h with h | ⟨a, _, h⟩
    · exact absurd ((good_hexFixedVec (B := fun _ => False) 64).panics _ h) id
    · rw [map_panic] at h
      split at h
      · cases h
      · next v hv =>
        rw [bind_panic] at h
        rcases h with h | ⟨a, _, h⟩
        · obtain ⟨bs, h⟩ := signature_panic h
          exact ⟨v, bs, hv, h⟩
        · cases h

theorem good_aggregate : Good OtherThan96 syncAggregate AggregateJson := by
  have h0 : Good (fun _ => True) syncAggregate AggregateJson :=
    good_struct hered_true (goodm_cons (good_hexFixedVec 64) <| goodm_cons (good_signature fun _ _ _ _ => trivial) goodm_nil)
      (show List.Nodup [chars% "sync_committee_bits", chars% "sync_committee_signature"] by decide) (fun _ => rfl) (fun _ => rfl)
  refine ⟨h0.exact, h0.writes, ?_⟩
  intro j h
  cases j with
  | obj ms =>
    simp only [syncAggregate, struct] at h
    split at h
    · cases h
    · split at h
      · cases h
      · obtain ⟨v, bs, h1, h2⟩ := aggregateMembers_panic (map_panic.mp h)
        exact ⟨_, v, bs, .here, .inl ⟨ms, rfl, lookup_mem h1⟩, h2⟩
  | arr vs =>
    simp only [syncAggregate, struct] at h
    split at h
    · next hl =>
      obtain ⟨v, bs, h1, h2⟩ := aggregateMembers_panic (map_panic.mp h)
      refine ⟨_, v, bs, .here, .inr ?_, h2⟩
      match vs, hl, h1 with
      | [a, b], _, h1 =>
        have h1 : some b = some v := h1
        cases h1
        exact ⟨a, rfl⟩
    · cases h
  | null | bool _ | str _ | num _ => simp [syncAggregate, struct] at h

theorem good_bootstrap (hB : Hered B) (lib : Lib) (f : Fork) : Good B (bootstrap lib f) (BootstrapJson lib f) :=
  good_struct hB (goodm_cons (good_lcHeader hB lib f) <| goodm_cons (good_committee hB) <|
    goodm_cons (good_vector hB (good_word lib) _) goodm_nil)
    (show List.Nodup [chars% "header", chars% "current_sync_committee", chars% "current_sync_committee_branch"] by decide)
    (fun _ => rfl) (fun _ => rfl)

theorem good_update (lib : Lib) (f : Fork) : Good OtherThan96 (update lib f) (UpdateJson lib f) :=
  good_struct hered_96 (goodm_cons (good_lcHeader hered_96 lib f) <| goodm_cons (good_committee hered_96) <|
    goodm_cons (good_vector hered_96 (good_word lib) _) <| goodm_cons (good_lcHeader hered_96 lib f) <|
    goodm_cons (good_vector hered_96 (good_word lib) _) <| goodm_cons good_aggregate <| goodm_cons (good_u64 lib) goodm_nil)
    (show List.Nodup [chars% "attested_header", chars% "next_sync_committee", chars% "next_sync_committee_branch",
      chars% "finalized_header", chars% "finality_branch", chars% "sync_aggregate", chars% "signature_slot"] by decide)
    (fun _ => rfl) (fun _ => rfl)

theorem good_finality (lib : Lib) (f : Fork) : Good OtherThan96 (finality lib f) (FinalityJson lib f) :=
  good_struct hered_96 (goodm_cons (good_lcHeader hered_96 lib f) <| goodm_cons (good_lcHeader hered_96 lib f) <|
    goodm_cons (good_vector hered_96 (good_word lib) _) <| goodm_cons good_aggregate <| goodm_cons (good_u64 lib) goodm_nil)
    (show List.Nodup [chars% "attested_header", chars% "finalized_header", chars% "finality_branch", chars% "sync_aggregate",
      chars% "signature_slot"] by decide)
    (fun _ => rfl) (fun _ => rfl)

theorem good_optimistic (lib : Lib) (f : Fork) : Good OtherThan96 (optimistic lib f) (OptimisticJson lib f) :=
  good_struct hered_96 (goodm_cons (good_lcHeader hered_96 lib f) <| goodm_cons good_aggregate <|
    goodm_cons (good_u64 lib) goodm_nil)
    (show List.Nodup [chars% "attested_header", chars% "sync_aggregate", chars% "signature_slot"] by decide)
    (fun _ => rfl) (fun _ => rfl)

theorem good_store (hB : Hered B) (lib : Lib) : Good B (store lib) (StoreJson lib) :=
  good_struct hB (goodm_cons (good_header hB lib) <| goodm_cons (good_committee hB) <|
    goodm_opt (good_committee hB) (fun _ h => by cases h) <| goodm_cons (good_header hB lib) <| goodm_cons good_plain <|
    goodm_cons good_plain goodm_nil)
    (show List.Nodup [chars% "finalized_header", chars% "current_sync_committee", chars% "next_sync_committee",
      chars% "optimistic_header", chars% "previous_max_active_participants", chars% "current_max_active_participants"] by decide)
    (fun _ => rfl) (fun _ => rfl)

theorem variant_eq (f : Fork) : variant f = forkName f := by cases f <;> rfl

theorem variantOf_iff (n : List Char) (f : Fork) : variantOf n = some f ↔ n = forkName f := by
  unfold variantOf
  constructor
  · intro h
    split at h
    · next hn => cases h; exact hn
    · split at h
      · next hn => cases h; exact hn
      · split at h
        · next hn => cases h; exact hn
        · split at h
          · next hn => cases h; exact hn
          · cases h
  · rintro rfl
    cases f <;> decide

theorem good_tagged (hB : Hered B) {T : Fork → Type} {t : (f : Fork) → JTy (T f)} {P : (f : Fork) → Json → T f → Prop}
    (ht : ∀ f, Good B (t f) (P f)) : Good B (tagged t) (TaggedJson P) where
  exact j x := by
    obtain ⟨f, x⟩ := x
    unfold TaggedJson
    constructor
    · intro h
      simp only [tagged] at h
      split at h
      · next n v =>
        split at h
        · next f' hf =>
          obtain ⟨y, h1, h2⟩ := map_ok.mp h
          cases h2
          exact ⟨v, by rw [(variantOf_iff _ _).mp hf], ((ht _).exact _ _).mp h1⟩
        · cases h
      · cases h
    · rintro ⟨v, rfl, h⟩
      simp only [tagged, (variantOf_iff _ _).mpr rfl]
      exact map_ok.mpr ⟨x, ((ht f).exact _ _).mpr h, rfl⟩
  writes x := ⟨_, by rw [← variant_eq]; rfl, (ht x.1).writes x.2⟩
  panics j h := by
    simp only [tagged] at h
    split at h
    · next n v =>
      split at h
      · exact hB.obj n v _ (by simp) ((ht _).panics _ (map_panic.mp h))
      · cases h
    · cases h

/-! ## Answers -/

theorem good_str : Good B ⟨Json.str, fun j => ofOption j.asStr⟩ (fun v s => v = .str s) where
  exact j x := by cases j <;> simp [ofOption_ok, Json.asStr]
  writes _ := rfl
  panics j h := absurd h ofOption_panic

theorem good_bool : Good B ⟨Json.bool, fun j => ofOption j.asBool⟩ (fun v s => v = .bool s) where
  exact j x := by cases j <;> simp [ofOption_ok, Json.asBool]
  writes _ := rfl
  panics j h := absurd h ofOption_panic

theorem good_members (hB : Hered B) {α} {t : JTy α} {P : Json → α → Prop} (ht : Good B t P) :
    Good B (struct false (responseMembers t) id id) (fun j y => IsObject false
      [Props.LcJsonSpec.optional (chars% "version") (fun v s => v = .str s) y.1,
        Props.LcJsonSpec.optional (chars% "execution_optimistic") (fun v b => v = .bool b) y.2.1,
        Props.LcJsonSpec.optional (chars% "finalized") (fun v b => v = .bool b) y.2.2.1,
        needed (chars% "data") (P · y.2.2.2.1)] j) :=
  good_struct hB (goodm_opt good_str (fun _ h => by cases h) <| goodm_opt good_bool (fun _ h => by cases h) <|
    goodm_opt good_bool (fun _ h => by cases h) <| goodm_cons ht goodm_nil)
    (show List.Nodup [chars% "version", chars% "execution_optimistic", chars% "finalized", chars% "data"] by decide)
    (fun _ => rfl) (fun _ => rfl)

theorem response_ok (hB : Hered B) {α} {t : JTy α} {P : Json → α → Prop} (ht : Good B t P) (j : Json) (x : α) :
    response t j = .ok x ↔ AnswerJson P j x := by
  unfold response AnswerJson
  rw [map_ok]
  constructor
  · rintro ⟨y, h, rfl⟩
    exact ⟨_, _, _, ((good_members hB ht).exact _ _).mp h⟩
  · rintro ⟨a, b, c, h⟩
    exact ⟨(a, b, c, x, ()), ((good_members hB ht).exact _ _).mpr h, rfl⟩

theorem response_panic (hB : Hered B) {α} {t : JTy α} {P : Json → α → Prop} (ht : Good B t P) {j : Json}
    (h : response t j = .panic) : B j := (good_members hB ht).panics j (map_panic.mp h)

theorem responses_ok (hB : Hered B) {α} {t : JTy α} {P : Json → α → Prop} (ht : Good B t P) (j : Json) (xs : List α) :
    responses t j = .ok xs ↔ IsArray (AnswerJson P) j xs := by
  unfold responses IsArray
  split
  · next js =>
    rw [readAll_ok (P := AnswerJson P) (fun j x => response_ok hB ht j x)]
    simp
  · next hn =>
    constructor
    · intro h; cases h
    · rintro ⟨js, rfl, _⟩; exact absurd rfl (hn js)

theorem responses_panic (hB : Hered B) {α} {t : JTy α} {P : Json → α → Prop} (ht : Good B t P) {j : Json}
    (h : responses t j = .panic) : B j := by
  unfold responses at h
  split at h
  · obtain ⟨j, hm, h⟩ := readAll_panic _ h
    exact hB.arr _ _ hm (response_panic hB ht h)
  · cases h

/-! ## Order -/

theorem isObject_perm {closed : Bool} {fields : List Field} {ms ms' : List (List Char × Json)} (hp : ms.Perm ms')
    (h : IsObject closed fields (.obj ms)) : IsObject closed fields (.obj ms') := by
  rcases h with ⟨l, he, h1, h2⟩ | ⟨vs, he, _⟩
  · cases he
    refine .inl ⟨ms', rfl, ?_, ?_⟩
    · intro f hf
      have hpf := hp.filter (fun m => m.1 == f.1)
      rcases h1 f hf with ⟨h, hn⟩ | ⟨v, h, hv⟩
      · rw [h] at hpf
        exact .inl ⟨hpf.symm.eq_nil, hn⟩
      · rw [h] at hpf
        exact .inr ⟨v, List.perm_singleton.mp hpf.symm, hv⟩
    · intro hc m hm
      exact h2 hc m (hp.mem_iff.mpr hm)
  · cases he

end Verif.LcJson
