import Verif.Props.E2ssSpec
import Verif.Props.E2store
import Verif.Lemmas.Archive
import Verif.Lemmas.EvmDb

namespace Verif.E2ss
open Verif.E2store hiding Header
open Verif.Archive Verif.EvmDb Verif.Trie Verif.Props.Snapshot

/-! ## Records -/

theorem next_record (t : UInt16) {v : Bytes} (rest : Bytes) (hv : v.length < 2 ^ 32) :
    nextEntry (recordBytes (t, v) ++ rest) = .ok (Entry.new t v, rest) := by
  have hl := recordBytes_length (t, v)
  simp only at hl
  have hz : (toLe 2 (0 : UInt16).toNat) = [0, 0] := by decide
  have h8 : (recordBytes (t, v) ++ rest).take 8 = toBe 2 t.toNat ++ toLe 4 v.length ++ toLe 2 (0 : UInt16).toNat := by
    rw [recordBytes, hz, List.append_assoc, List.take_left' (by simp)]
  have h8' : (recordBytes (t, v) ++ rest).drop 8 = v ++ rest := by
    rw [recordBytes, List.append_assoc, List.drop_left' (by simp)]
  have hn : (UInt32.ofNat v.length).toNat = v.length := UInt32.toNat_ofNat_of_lt' hv
  simp only [nextEntry]
  rw [if_neg (by rw [List.length_append, hl]; omega), h8, h8', header_deserialize t v.length 0 hv]
  simp only [if_true, hn]
  rw [if_neg (by simp), List.take_left' rfl, List.drop_left' rfl]
  rfl

theorem next_strict {rem rest : Bytes} {e : Entry} (h : nextEntry rem = .ok (e, rest)) :
    ∃ t v, v.length < 2 ^ 32 ∧ e = Entry.new t v ∧ rem = recordBytes (t, v) ++ rest := by
  obtain ⟨t, v, he, hr⟩ := Props.C38_stream_strict rem rest e h
  refine ⟨t, v, ?_, he, hr⟩
  simp only [nextEntry] at h
  split at h
  · cases h
  · split at h
    · next hd hh =>
      split at h
      · cases h
      · next hlen =>
        have h1 := congrArg (fun x => match x with | .ok (y : Entry × Bytes) => y.1.value | .error _ => []) h
        simp only [he, Entry.new] at h1
        rw [← h1, List.length_take]
        have := hd.length.toNat_lt
        omega
    · cases h

theorem next_cases (b : Bytes) :
    (nextEntry b = .error .eof ∧ Cut b) ∨ (nextEntry b = .error .badHeader ∧ ¬ Cut b) ∨
      ∃ t v rest, v.length < 2 ^ 32 ∧ nextEntry b = .ok (Entry.new t v, rest) ∧ b = recordBytes (t, v) ++ rest := by
  cases h : nextEntry b with
  | ok r =>
    obtain ⟨e, rest⟩ := r
    obtain ⟨t, v, hv, rfl, hb⟩ := next_strict h
    exact Or.inr (Or.inr ⟨t, v, rest, hv, rfl, hb⟩)
  | error err =>
    simp only [nextEntry] at h
    split at h
    · next hl => cases h; exact Or.inl ⟨rfl, Or.inl hl⟩
    · next hl =>
      obtain ⟨t, n, r, hn, hsplit⟩ := header_split (b.take 8) (by simp; omega)
      rw [hsplit, header_deserialize t n r hn] at h
      by_cases hr : r = 0
      · subst hr
        simp only [if_true] at h
        rw [UInt32.toNat_ofNat_of_lt' (show n < UInt32.size from hn)] at h
        split at h
        · next hlen =>
          cases h
          refine Or.inl ⟨rfl, Or.inr ⟨t, b.drop 8 ++ List.replicate (n - (b.drop 8).length) 0,
            List.replicate (n - (b.drop 8).length) 0, ?_, ?_, ?_⟩⟩
          · simp only [List.length_append, List.length_replicate]; omega
          · rw [Ne, List.replicate_eq_nil_iff]; omega
          · have hz : (toLe 2 (0 : UInt16).toNat) = [0, 0] := by decide
            have hlen' : (b.drop 8 ++ List.replicate (n - (b.drop 8).length) (0 : UInt8)).length = n := by
              simp only [List.length_append, List.length_replicate]; omega
            simp only [recordBytes, hlen']
            rw [← List.append_assoc, ← hz, ← hsplit, List.take_append_drop]
        · cases h
      · rw [if_neg hr] at h
        cases h
        refine Or.inr (Or.inl ⟨rfl, ?_⟩)
        rintro (hc | ⟨t', raw, more, h1, h2, h3⟩)
        · exact hl hc
        · have h8 : (b ++ more).take 8 = b.take 8 := List.take_append_of_le_length (by omega)
          have hz : (toLe 2 (0 : UInt16).toNat) = [0, 0] := by decide
          rw [h3, recordBytes, List.take_left' (by simp), hsplit] at h8
          have := congrArg (fun l => l.drop 6) h8
          simp only [List.append_assoc] at this
          rw [← List.append_assoc, ← List.append_assoc, List.drop_left' (by simp), List.drop_left' (by simp)] at this
          have h0 : r.toNat = 0 := by
            have h4 := congrArg fromLe this
            rw [fromLe_toLe_of_lt (by have := r.toNat_lt; omega)] at h4
            exact h4.symm
          exact hr (UInt16.toNat_inj.mp h0)

theorem eof_iff (b : Bytes) : nextEntry b = .error .eof ↔ Cut b := by
  rcases next_cases b with ⟨h, hc⟩ | ⟨h, hc⟩ | ⟨t, v, rest, hv, h, hb⟩
  · simp [h, hc]
  · simp [h, hc]
  · constructor
    · intro h'; rw [h] at h'; cases h'
    · rintro (hc | ⟨t', raw, more, h1, h2, h3⟩)
      · have := congrArg List.length hb
        rw [List.length_append, recordBytes_length] at this
        simp only at this
        omega
      · have h4 : nextEntry (b ++ more) = .ok (Entry.new t v, rest ++ more) := by
          rw [hb, List.append_assoc]; exact next_record t _ hv
        have h5 : nextEntry (b ++ more) = .ok (Entry.new t' raw, []) := by
          have := next_record t' [] h1
          rwa [List.append_nil, ← h3] at this
        rw [h4] at h5
        simp only [Except.ok.injEq, Prod.mk.injEq, List.append_eq_nil_iff] at h5
        exact absurd h5.2.2 h2

theorem fromEntry_iff {α : Type} (t t' : UInt16) (c : Codec α) (v : Bytes) (x : α) :
    fromEntry t c (Entry.new t' v) = .ok x ↔ t' = t ∧ c.dec v = some x := by
  simp only [fromEntry, Entry.new]
  by_cases h : t' = t
  · simp only [h, ne_eq, not_true_eq_false, if_false, true_and]
    cases c.dec v <;> simp
  · simp [h]

theorem fromEntry_ok_new {α : Type} {t : UInt16} {c : Codec α} {v : Bytes} {x : α} (h : c.dec v = some x) :
    fromEntry t c (Entry.new t v) = .ok x := (fromEntry_iff t t c v x).mpr ⟨rfl, h⟩

theorem open_iff (c : Codecs) (file : Bytes) (h : Header) (r : Reader) :
    Reader.open c file = .ok (h, r) ↔ r.pending = 0 ∧ ∃ raw, raw.length < 2 ^ 32 ∧ c.header.dec raw = some h ∧
      file = recordBytes (0x6532, []) ++ (recordBytes (0x0300, raw) ++ r.rem) := by
  have hv : ∀ e, readVersion e = .ok e → e = versionEntry := by
    intro e he
    simp only [readVersion] at he
    obtain ⟨⟨t, l, s⟩, v⟩ := e
    simp only at he
    split at he
    · cases he
    · next h1 =>
      split at he
      · cases he
      · next h2 =>
        split at he
        · cases he
        · next h3 =>
          split at he
          · cases he
          · next h4 =>
            simp only [ne_eq, Decidable.not_not] at h1 h2 h3 h4
            subst h1; subst h2; subst h3; subst h4
            rfl
  have hv' : ∀ e x, readVersion e = .ok x → x = e := by
    intro e x he
    simp only [readVersion] at he
    repeat' split at he
    all_goals cases he
    rfl
  constructor
  · intro ho
    simp only [Reader.open, nextOrErr, Res.bind, Res.map] at ho
    cases h1 : nextEntry file with
    | error e => simp [h1] at ho
    | ok x =>
      obtain ⟨e1, r1⟩ := x
      simp only [h1] at ho
      cases h2 : readVersion e1 with
      | err => simp [h2] at ho
      | panic => simp [h2] at ho
      | ok y =>
        simp only [h2] at ho
        cases h3 : nextEntry r1 with
        | error e => simp [h3] at ho
        | ok z =>
          obtain ⟨e2, r2⟩ := z
          simp only [h3] at ho
          cases h4 : fromEntry compressedHeader c.header e2 with
          | err => simp [h4] at ho
          | panic => simp [h4] at ho
          | ok hh =>
            simp only [h4, Res.ok.injEq, Prod.mk.injEq] at ho
            obtain ⟨rfl, rfl⟩ := ho
            obtain ⟨t, v, hvl, rfl, hr1⟩ := next_strict h3
            obtain ⟨rfl, hd⟩ := (fromEntry_iff _ _ _ _ _).mp h4
            refine ⟨rfl, v, hvl, hd, ?_⟩
            obtain ⟨t', v', hvl', rfl, hr0⟩ := next_strict h1
            have := hv' _ _ h2
            subst this
            have h5 := hv _ h2
            have h6 : t' = 0x6532 := congrArg (fun e => e.header.type) h5
            have h7 : v' = [] := congrArg (fun e => e.value) h5
            subst h6; subst h7
            rw [hr0, hr1]
            rfl
  · rintro ⟨h1, raw, h2, h3, rfl⟩
    obtain ⟨rem, p⟩ := r
    simp only at h1
    subst h1
    simp only [Reader.open, nextOrErr, Res.bind, Res.map, next_record 0x6532 _ (v := []) (by decide)]
    have : readVersion (Entry.new 0x6532 []) = .ok (Entry.new 0x6532 []) := by decide
    simp only [this, next_record 0x0300 rem h2]
    have := fromEntry_ok_new (t := compressedHeader) h3
    simp only [compressedHeader] at this
    simp only [compressedHeader, this]

theorem open_no_panic (c : Codecs) (file : Bytes) : Reader.open c file ≠ .panic := by
  have h1 : ∀ b, nextOrErr b ≠ .panic := by
    intro b; simp only [nextOrErr]; split <;> simp
  have h2 : ∀ e, readVersion e ≠ .panic := by
    intro e; simp only [readVersion]; repeat' split
    all_goals simp
  have h3 : ∀ e, fromEntry compressedHeader c.header e ≠ .panic := by
    intro e; simp only [fromEntry]; repeat' split
    all_goals simp
  intro h
  simp only [Reader.open, Res.bind, Res.map] at h
  cases e1 : nextOrErr file with
  | panic => exact h1 _ e1
  | err => simp [e1] at h
  | ok x =>
    simp only [e1] at h
    cases e2 : readVersion x.1 with
    | panic => exact h2 _ e2
    | err => simp [e2] at h
    | ok y =>
      simp only [e2] at h
      cases e3 : nextOrErr x.2 with
      | panic => exact h1 _ e3
      | err => simp [e3] at h
      | ok z =>
        simp only [e3] at h
        cases e4 : fromEntry compressedHeader c.header z.1 with
        | panic => exact h3 _ e4
        | err => simp [e4] at h
        | ok w => simp [e4] at h

/-! ## Reading -/

theorem u32_pred {p : UInt32} (h : p ≠ 0) : (p - 1).toNat + 1 = p.toNat := by
  have h0 : p.toNat ≠ 0 := fun e => h (UInt32.toNat_inj.mp e)
  have : (1 : UInt32) ≤ p := by rw [UInt32.le_iff_toNat_le]; show 1 ≤ p.toNat; omega
  rw [UInt32.toNat_sub_of_le _ _ this]
  show p.toNat - 1 + 1 = p.toNat
  omega

theorem next_storage_iff (c : Codecs) (r : Reader) (h : r.pending ≠ 0) (x : Option Item × Reader) :
    r.next c = .ok x ↔ ∃ raw l, raw.length < 2 ^ 32 ∧ c.storage.dec raw = some l ∧
      r.rem = recordBytes (0x0900, raw) ++ x.2.rem ∧ x.1 = some (.storage l) ∧ x.2.pending = r.pending - 1 := by
  simp only [Reader.next, if_neg h]
  constructor
  · intro hx
    cases h1 : nextEntry r.rem with
    | error e => simp [h1] at hx
    | ok y =>
      obtain ⟨e, rest⟩ := y
      simp only [h1] at hx
      cases h2 : fromEntry compressedStorage c.storage e with
      | err => simp [h2] at hx
      | panic => simp [h2] at hx
      | ok l =>
        simp only [h2, Res.ok.injEq] at hx
        subst hx
        obtain ⟨t, v, hv, rfl, hr⟩ := next_strict h1
        obtain ⟨rfl, hd⟩ := (fromEntry_iff _ _ _ _ _).mp h2
        exact ⟨v, l, hv, hd, hr, rfl, rfl⟩
  · rintro ⟨raw, l, h1, h2, h3, h4, h5⟩
    obtain ⟨i, ⟨rem, p⟩⟩ := x
    simp only at h3 h4 h5
    subst h4; subst h5
    rw [h3, next_record _ _ h1]
    have := fromEntry_ok_new (t := compressedStorage) h2
    simp only [compressedStorage] at this
    simp only [compressedStorage, this]

theorem next_account_iff (c : Codecs) (r : Reader) (h : r.pending = 0) (a : AccountEntry) (r' : Reader) :
    r.next c = .ok (some (.account a), r') ↔ ∃ raw, raw.length < 2 ^ 32 ∧ c.account.dec raw = some a ∧
      r.rem = recordBytes (0x0800, raw) ++ r'.rem ∧ r'.pending = a.storageCount := by
  simp only [Reader.next, if_pos h]
  constructor
  · intro hx
    cases h1 : nextEntry r.rem with
    | error e => cases e <;> simp [h1] at hx
    | ok y =>
      obtain ⟨e, rest⟩ := y
      simp only [h1] at hx
      cases h2 : fromEntry compressedAccount c.account e with
      | err => simp [h2] at hx
      | panic => simp [h2] at hx
      | ok l =>
        simp only [h2, Res.ok.injEq, Prod.mk.injEq, Option.some.injEq, Item.account.injEq] at hx
        obtain ⟨rfl, rfl⟩ := hx
        obtain ⟨t, v, hv, rfl, hr⟩ := next_strict h1
        obtain ⟨rfl, hd⟩ := (fromEntry_iff _ _ _ _ _).mp h2
        exact ⟨v, hv, hd, hr, rfl⟩
  · rintro ⟨raw, h1, h2, h3, h4⟩
    obtain ⟨rem, p⟩ := r'
    simp only at h3 h4
    subst h4
    rw [h3, next_record _ _ h1]
    have := fromEntry_ok_new (t := compressedAccount) h2
    simp only [compressedAccount] at this
    simp only [compressedAccount, this]

theorem next_end_iff (c : Codecs) (r : Reader) (r' : Reader) :
    r.next c = .ok (none, r') ↔ r.pending = 0 ∧ r' = r ∧ Cut r.rem := by
  by_cases h : r.pending = 0
  · simp only [Reader.next, if_pos h]
    rw [← eof_iff]
    cases h1 : nextEntry r.rem with
    | error e => cases e <;> simp [h, eq_comm]
    | ok y =>
      obtain ⟨e, rest⟩ := y
      simp only
      split <;> simp
  · constructor
    · intro hx
      obtain ⟨_, _, _, _, _, h4, _⟩ := (next_storage_iff c r h _).mp hx
      cases h4
    · intro hx; exact absurd hx.1 h

/-- With no storage record pending the next item is no storage. -/
theorem next_zero_storage (c : Codecs) (r r' : Reader) (h : r.pending = 0) (l : List StorageItem) :
    r.next c ≠ .ok (some (.storage l), r') := by
  simp only [Reader.next, if_pos h]
  split
  · simp
  · simp
  · split <;> simp

theorem next_no_err (c : Codecs) (r : Reader) : r.next c ≠ .err := by
  simp only [Reader.next]
  split
  · split
    · simp
    · simp
    · split <;> simp
  · split
    · simp
    · split <;> simp

/-- What one step of the reader gives. -/
theorem next_shorter (c : Codecs) (r r' : Reader) (i : Item) (h : r.next c = .ok (some i, r')) :
    r'.rem.length < r.rem.length := by
  by_cases hp : r.pending = 0
  · cases i with
    | account a =>
      obtain ⟨raw, h1, h2, h3, h4⟩ := (next_account_iff c r hp a r').mp h
      rw [h3, List.length_append, recordBytes_length]; omega
    | storage l => exact absurd h (next_zero_storage c r r' hp l)
  · obtain ⟨raw, l, h1, h2, h3, h4, h5⟩ := (next_storage_iff c r hp _).mp h
    simp only at h3
    rw [h3, List.length_append, recordBytes_length]; omega

theorem items_sound (c : Codecs) : ∀ (fuel : Nat) (r : Reader) (is : List Item), Reader.items c fuel r = .ok is →
    ∃ ps rest gs, Parts c r.pending.toNat r.rem ps rest ∧ Groups c rest gs ∧ is = ps.map .storage ++ items gs
  | 0, _, _, h => by cases h
  | fuel + 1, r, is, h => by
    simp only [Reader.items] at h
    cases h1 : r.next c with
    | err => simp [h1, Res.bind] at h
    | panic => simp [h1, Res.bind] at h
    | ok x =>
      obtain ⟨i, r'⟩ := x
      simp only [h1, Res.bind] at h
      cases i with
      | none =>
        simp only [Res.ok.injEq] at h
        subst h
        obtain ⟨hp, rfl, hc⟩ := (next_end_iff c r r').mp h1
        refine ⟨[], r'.rem, [], ?_, .done hc, rfl⟩
        rw [hp]; exact .done _
      | some i =>
        simp only [Res.map, Res.bind] at h
        cases h2 : Reader.items c fuel r' with
        | err => simp [h2] at h
        | panic => simp [h2] at h
        | ok js =>
          simp only [h2, Res.ok.injEq] at h
          subst h
          obtain ⟨ps, rest, gs, h3, h4, rfl⟩ := items_sound c fuel r' js h2
          by_cases hp : r.pending = 0
          · cases i with
            | storage l => exact absurd h1 (next_zero_storage c r r' hp l)
            | account a =>
              obtain ⟨raw, g1, g2, g3, g4⟩ := (next_account_iff c r hp a r').mp h1
              refine ⟨[], r.rem, ⟨a, ps⟩ :: gs, ?_, ?_, ?_⟩
              · rw [hp]; exact .done _
              · rw [g3]
                rw [g4] at h3
                exact .more g1 g2 h3 h4
              · simp [items]
          · obtain ⟨raw, l, g1, g2, g3, g4, g5⟩ := (next_storage_iff c r hp _).mp h1
            simp only at g3 g4 g5
            cases g4
            refine ⟨l :: ps, rest, gs, ?_, h4, by simp⟩
            rw [← u32_pred hp, g3]
            rw [g5] at h3
            exact .more g1 g2 h3

theorem items_parts (c : Codecs) : ∀ (n : Nat) (b rest : Bytes) (ps : List (List StorageItem)), Parts c n b ps rest →
    ∀ (p : UInt32) (fuel : Nat) (is : List Item), p.toNat = n → b.length < fuel →
      (∀ fuel', rest.length < fuel' → Reader.items c fuel' ⟨rest, 0⟩ = .ok is) →
      Reader.items c fuel ⟨b, p⟩ = .ok (ps.map .storage ++ is) := by
  intro n b rest ps h
  induction h with
  | done b =>
    intro p fuel is hp hf hi
    have : p = 0 := UInt32.toNat_inj.mp hp
    subst this
    exact hi fuel hf
  | @more n raw b rest l ls h1 h2 _ ih =>
    intro p fuel is hp hf hi
    have hne : p ≠ 0 := by rintro rfl; cases hp
    obtain ⟨fuel, rfl⟩ : ∃ f, fuel = f + 1 := ⟨fuel - 1, by omega⟩
    have hn : Reader.next c ⟨recordBytes (0x0900, raw) ++ b, p⟩ = .ok (some (.storage l), ⟨b, p - 1⟩) :=
      (next_storage_iff c _ hne _).mpr ⟨raw, l, h1, h2, rfl, rfl, rfl⟩
    have hpp := u32_pred hne
    rw [List.length_append, recordBytes_length] at hf
    simp only [Reader.items, hn, Res.bind, Res.map, ih (p - 1) fuel is (by omega) (by omega) hi, List.map_cons,
      List.cons_append]

theorem items_complete (c : Codecs) : ∀ (b : Bytes) (gs : List Group), Groups c b gs → ∀ fuel, b.length < fuel →
    Reader.items c fuel ⟨b, 0⟩ = .ok (items gs) := by
  intro b gs h
  induction h with
  | @done b hc =>
    intro fuel hf
    obtain ⟨fuel, rfl⟩ : ∃ f, fuel = f + 1 := ⟨fuel - 1, by omega⟩
    have hn : Reader.next c ⟨b, 0⟩ = .ok (none, ⟨b, 0⟩) := (next_end_iff c _ _).mpr ⟨rfl, rfl, hc⟩
    simp only [Reader.items, hn, Res.bind]
    rfl
  | @more raw b rest a ps gs h1 h2 h3 _ ih =>
    intro fuel hf
    obtain ⟨fuel, rfl⟩ : ∃ f, fuel = f + 1 := ⟨fuel - 1, by omega⟩
    have hn : Reader.next c ⟨recordBytes (0x0800, raw) ++ b, 0⟩ = .ok (some (.account a), ⟨b, a.storageCount⟩) :=
      (next_account_iff c _ rfl _ _).mpr ⟨raw, h1, h2, rfl, rfl⟩
    rw [List.length_append, recordBytes_length] at hf
    simp only [Reader.items, hn, Res.bind, Res.map, items_parts c _ _ _ _ h3 a.storageCount fuel _ rfl (by omega) ih]
    simp [items]

theorem readFile_iff (c : Codecs) (file : Bytes) (h : Header) (is : List Item) :
    readFile c file = .ok (h, is) ↔ ∃ gs, Says c file h gs ∧ is = items gs := by
  constructor
  · intro hr
    simp only [readFile, Res.bind, Res.map] at hr
    cases ho : Reader.open c file with
    | err => simp [ho] at hr
    | panic => simp [ho] at hr
    | ok x =>
      obtain ⟨h', r⟩ := x
      simp only [ho] at hr
      cases hi : Reader.items c (r.rem.length + 1) r with
      | err => simp [hi] at hr
      | panic => simp [hi] at hr
      | ok js =>
        simp only [hi, Res.ok.injEq, Prod.mk.injEq] at hr
        obtain ⟨rfl, rfl⟩ := hr
        obtain ⟨hp, raw, h1, h2, h3⟩ := (open_iff c file h' r).mp ho
        obtain ⟨ps, rest, gs, g1, g2, rfl⟩ := items_sound c _ _ _ hi
        rw [hp] at g1
        cases g1
        exact ⟨gs, ⟨raw, r.rem, h1, h2, g2, h3⟩, rfl⟩
  · rintro ⟨gs, ⟨raw, rest, h1, h2, h3, h4⟩, rfl⟩
    have ho := (open_iff c file h ⟨rest, 0⟩).mpr ⟨rfl, raw, h1, h2, h4⟩
    simp only [readFile, Res.bind, Res.map, ho, items_complete c rest gs h3 _ (Nat.lt_succ_self _)]

/-- What a file says is unique. -/
theorem items_injective : ∀ {gs gs' : List Group}, (∀ g ∈ gs, g.account.storageCount.toNat = g.parts.length) →
    (∀ g ∈ gs', g.account.storageCount.toNat = g.parts.length) → items gs = items gs' → gs = gs'
  | [], [], _, _, _ => rfl
  | [], g :: gs', _, _, h => by simp [items] at h
  | g :: gs, [], _, _, h => by simp [items] at h
  | ⟨a, ps⟩ :: gs, ⟨a', ps'⟩ :: gs', h1, h2, h => by
    simp only [items, List.flatMap_cons, List.cons_append, List.cons.injEq, Item.account.injEq] at h
    obtain ⟨rfl, h⟩ := h
    have e1 : a.storageCount.toNat = ps.length := h1 _ List.mem_cons_self
    have e2 : a.storageCount.toNat = ps'.length := h2 _ List.mem_cons_self
    have hl : (ps.map Item.storage).length = (ps'.map Item.storage).length := by simp; omega
    obtain ⟨h3, h4⟩ := List.append_inj h hl
    have h5 : ps = ps' := by
      have := List.map_inj_right (f := Item.storage) (l := ps) (l' := ps') (fun x y e => Item.storage.inj e)
      exact this.mp h3
    subst h5
    rw [items_injective (fun g hg => h1 g (List.mem_cons_of_mem _ hg)) (fun g hg => h2 g (List.mem_cons_of_mem _ hg)) h4]

theorem parts_length {c : Codecs} {n : Nat} {b rest : Bytes} {ps : List (List StorageItem)} (h : Parts c n b ps rest) :
    ps.length = n := by
  induction h with
  | done => rfl
  | more _ _ _ ih => simp [ih]

theorem groups_counts {c : Codecs} {b : Bytes} {gs : List Group} (h : Groups c b gs) :
    ∀ g ∈ gs, g.account.storageCount.toNat = g.parts.length := by
  induction h with
  | done => simp
  | more _ _ h3 _ ih =>
    intro g hg
    rcases List.mem_cons.mp hg with rfl | hg
    · exact (parts_length h3).symm
    · exact ih g hg

end Verif.E2ss
