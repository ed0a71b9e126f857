import Verif.Props.BeaconStoreSpec

/-! # Lemmas on the beacon store -/

namespace Verif.BeaconStore
open Verif.Props.BeaconSpec

variable {U F O : Type} {c : Codec U F O}

theorem find_filter_key {α β : Type} [DecidableEq β] {f : α → β} {k : β} {q : α → Bool} :
    ∀ {l : List α}, (l.map f).Nodup →
    (l.filter q).find? (fun r => decide (f r = k)) =
      (l.find? fun r => decide (f r = k)).filter q
  | [], _ => rfl
  | a :: l, hn => by
    rw [List.map_cons, List.nodup_cons] at hn
    have ih := find_filter_key (k := k) (q := q) hn.2
    by_cases hk : f a = k
    · rw [List.find?_cons_of_pos (by simpa using hk), List.filter_cons]
      cases hq : q a with
      | true => simp [hk, hq, Option.filter]
      | false =>
        have : l.find? (fun r => decide (f r = k)) = none := by
          rw [List.find?_eq_none]
          intro x hx hh
          rw [decide_eq_true_eq] at hh
          exact hn.1 (hk ▸ hh ▸ List.mem_map_of_mem hx)
        simp only [Option.filter, hq]
        rw [if_neg (by simp), ih, this]
        rfl
    · rw [List.find?_cons_of_neg (by simpa using hk), List.filter_cons, ← ih]
      split
      · rw [List.find?_cons_of_neg (by simpa using hk)]
      · rfl

theorem find_append_key {α β : Type} [DecidableEq β] (f : α → β) (k : β) (l : List α) (a : α) :
    (l ++ [a]).find? (fun r => decide (f r = k)) =
      (l.find? fun r => decide (f r = k)).or (if f a = k then some a else none) := by
  rw [List.find?_append]
  by_cases h : f a = k <;> simp [h]

theorem any_key {α β : Type} [DecidableEq β] (f : α → β) (k : β) (l : List α) :
    l.any (fun r => decide (f r = k)) = (l.find? fun r => decide (f r = k)).isSome := by
  rw [Bool.eq_iff_iff, List.find?_isSome, List.any_eq_true]

/-- The row of a root. -/
def bootRow (st : State F O) (root : Bytes) : Option (Bytes × Nat) :=
  (st.boots.find? fun r => decide (r.root = root)).map fun r => (r.value, r.slot)

/-- The value of a period. -/
def updateRow (st : State F O) (p : Nat) : Option Bytes :=
  (st.updates.find? fun r => decide (r.1 = p)).map (·.2)

theorem bootRow_insert (st : State F O) (r : BootRow) (root : Bytes) :
    bootRow (insertBoot st r) root =
      (bootRow st root).or (if r.root = root then some (r.value, r.slot) else none) := by
  unfold insertBoot
  split
  · next h =>
    rw [any_key (fun x : BootRow => x.root)] at h
    by_cases hr : r.root = root
    · subst hr
      obtain ⟨x, hx⟩ := Option.isSome_iff_exists.1 h
      unfold bootRow
      rw [hx]; rfl
    · simp [hr]
  · unfold bootRow
    rw [find_append_key (fun x : BootRow => x.root)]
    cases st.boots.find? fun r => decide (r.root = root) with
    | some x => rfl
    | none => by_cases hr : r.root = root <;> simp [hr]

theorem updateRow_insert (st : State F O) (q : Nat) (v : Bytes) (p : Nat) :
    updateRow (insertUpdate st q v) p = (updateRow st p).or (if q = p then some v else none) := by
  unfold insertUpdate
  split
  · next h =>
    rw [any_key (fun x : Nat × Bytes => x.1)] at h
    by_cases hr : q = p
    · subst hr
      obtain ⟨x, hx⟩ := Option.isSome_iff_exists.1 h
      unfold updateRow
      rw [hx]; rfl
    · simp [hr]
  · unfold updateRow
    rw [find_append_key (fun x : Nat × Bytes => x.1)]
    cases st.updates.find? fun r => decide (r.1 = p) with
    | some x => rfl
    | none => by_cases hr : q = p <;> simp [hr]

theorem insertUpdate_rest (st : State F O) (q : Nat) (v : Bytes) :
    (insertUpdate st q v).boots = st.boots ∧ (insertUpdate st q v).summaries = st.summaries ∧
    (insertUpdate st q v).fin = st.fin ∧ (insertUpdate st q v).opt = st.opt := by
  unfold insertUpdate
  split <;> simp

theorem insertUpdates_rest (w : Nat → Bool) : ∀ (l : List (Nat × U)) (i : Nat) (st : State F O),
    (insertUpdates c w i st l).boots = st.boots ∧ (insertUpdates c w i st l).summaries = st.summaries ∧
    (insertUpdates c w i st l).fin = st.fin ∧ (insertUpdates c w i st l).opt = st.opt
  | [], _, _ => ⟨rfl, rfl, rfl, rfl⟩
  | (p, u) :: l, i, st => by
    rw [insertUpdates]
    have hst : ∀ st' : State F O, (st'.boots = st.boots ∧ st'.summaries = st.summaries ∧
        st'.fin = st.fin ∧ st'.opt = st.opt) →
        (insertUpdates c w (i + 1) st' l).boots = st.boots ∧
        (insertUpdates c w (i + 1) st' l).summaries = st.summaries ∧
        (insertUpdates c w (i + 1) st' l).fin = st.fin ∧
        (insertUpdates c w (i + 1) st' l).opt = st.opt := by
      intro st' h
      have := insertUpdates_rest w l (i + 1) st'
      rw [this.1, this.2.1, this.2.2.1, this.2.2.2]
      exact h
    apply hst
    unfold writeUpdate
    cases sqlInt p with
    | none => exact ⟨rfl, rfl, rfl, rfl⟩
    | some q =>
      dsimp only
      split
      · exact insertUpdate_rest _ _ _
      · exact ⟨rfl, rfl, rfl, rfl⟩

theorem insertUpdates_row (w : Nat → Bool) (p : Nat) : ∀ (us : List U) (n a i : Nat) (st : State F O),
    updateRow (insertUpdates c w i st ((List.range' a n).zip us)) p =
      (updateRow st p).or (if a ≤ p ∧ p < a + n ∧ p < 2 ^ 63 ∧ w (i + (p - a)) = true then
        us[p - a]?.map c.encUpdate else none)
  | [], n, a, i, st => by
    rw [List.zip_nil_right, insertUpdates]; simp
  | u :: us, 0, a, i, st => by
    rw [List.range'_zero, List.zip_nil_left, insertUpdates, if_neg (by omega), Option.or_none]
  | u :: us, n + 1, a, i, st => by
    rw [List.range'_succ, List.zip_cons_cons, insertUpdates, insertUpdates_row]
    have hrow : updateRow (writeUpdate st a (c.encUpdate u) (w i)) p =
        (updateRow st p).or (if a = p ∧ p < 2 ^ 63 ∧ w i = true then some (c.encUpdate u) else none) := by
      unfold writeUpdate sqlInt
      by_cases h63 : a < 2 ^ 63
      · rw [if_pos h63]
        dsimp only
        by_cases hw : w i = true
        · rw [if_pos hw, updateRow_insert]
          by_cases hap : a = p
          · rw [if_pos hap, if_pos ⟨hap, hap ▸ h63, hw⟩]
          · rw [if_neg hap, if_neg (fun h => hap h.1)]
        · rw [if_neg hw, if_neg (fun h => hw h.2.2), Option.or_none]
      · rw [if_neg h63, if_neg (fun h => h63 (by omega)), Option.or_none]
    rw [hrow, Option.or_assoc]
    congr 1
    by_cases hap : a = p
    · subst hap
      rw [if_neg (c := a + 1 ≤ a ∧ _) (by omega), Option.or_none, Nat.sub_self]
      by_cases hc : a < 2 ^ 63 ∧ w i = true
      · rw [if_pos ⟨rfl, hc⟩, if_pos ⟨Nat.le_refl _, by omega, hc.1, by simpa using hc.2⟩]; rfl
      · rw [if_neg (fun h => hc h.2), if_neg]
        rintro ⟨_, _, h3, h4⟩
        exact hc ⟨h3, by simpa using h4⟩
    · rw [if_neg (fun h => hap h.1), Option.none_or]
      by_cases hle : a ≤ p
      · have e1 : p - a = (p - (a + 1)) + 1 := by omega
        have e2 : i + (p - a) = i + 1 + (p - (a + 1)) := by omega
        rw [e2, e1, List.getElem?_cons_succ]
        by_cases hc : a + 1 ≤ p ∧ p < a + 1 + n ∧ p < 2 ^ 63 ∧ w (i + 1 + (p - (a + 1))) = true
        · rw [if_pos hc, if_pos ⟨hle, by omega, hc.2.2.1, hc.2.2.2⟩]
        · rw [if_neg hc, if_neg]
          rintro ⟨_, h2, h3, h4⟩
          exact hc ⟨by omega, by omega, h3, h4⟩
      · rw [if_neg (by omega), if_neg (by omega)]

theorem periods_eq (start count : UInt64) (h : start.toNat + count.toNat < 2 ^ 64) :
    periods start count = List.range' start.toNat count.toNat := by
  unfold periods
  rw [UInt64.toNat_add, Nat.mod_eq_of_lt h, Nat.add_sub_cancel_left]

theorem periods_wrap (start count : UInt64) (h : 2 ^ 64 ≤ start.toNat + count.toNat) :
    periods start count = [] := by
  unfold periods
  rw [UInt64.toNat_add]
  have h1 := start.toNat_lt
  have h2 := count.toNat_lt
  have : (start.toNat + count.toNat) % 2 ^ 64 = start.toNat + count.toNat - 2 ^ 64 := by
    rw [Nat.mod_eq_sub_mod h, Nat.mod_eq_of_lt (by omega)]
  rw [this, show start.toNat + count.toNat - 2 ^ 64 - start.toNat = 0 by omega]
  rfl

/-- The store holds exactly what the records say. -/
structure Inv (c : Codec U F O) (st : State F O) (rb : Bytes → Option (Bytes × Nat))
    (ru : Nat → Option U) (rs : Option (Nat × Bytes)) (rf : Option F) (ro : Option O) : Prop where
  nodup : (st.boots.map (·.root)).Nodup
  boots : ∀ root, bootRow st root = rb root
  updates : ∀ p, updateRow st p = (ru p).map c.encUpdate
  sums : st.summaries = rs
  sumsOk : ∀ r, st.summaries = some r → c.decSum r.2 = true
  fin : st.fin = rf
  opt : st.opt = ro

theorem step_inv {st : State F O} {rb ru rs rf ro} (h : Inv c st rb ru rs rf ro) (op : Op) :
    ∃ st', step c st op = some st' ∧ Inv c st' (fun root => bootStep c root (rb root) op)
      (fun p => updateStep c p (ru p) op) (sumStep c rs op) (finStep c rf op) (optStep c ro op) := by
  cases op with
  | prune t =>
    refine ⟨_, rfl, ?_⟩
    refine ⟨?_, ?_, h.updates, h.sums, h.sumsOk, h.fin, h.opt⟩
    · exact (List.filter_sublist.map _).nodup h.nodup
    · intro root
      rw [bootStep, ← h.boots]
      unfold bootRow prune
      rw [find_filter_key (f := fun r : BootRow => r.root) h.nodup]
      cases st.boots.find? fun r => decide (r.root = root) with
      | none => rfl
      | some r =>
        by_cases ht : r.slot < t
        · have : ¬ t ≤ r.slot := by omega
          simp [Option.filter, ht]
        · have : t ≤ r.slot := by omega
          simp [Option.filter, ht, this]
  | restart =>
    refine ⟨{ st with fin := none, opt := none }, ?_, ?_⟩
    · rw [step, reopen]
      cases hs : st.summaries with
      | none => rfl
      | some r => dsimp only; rw [if_pos (h.sumsOk r hs)]
    · exact ⟨h.nodup, h.boots, h.updates, h.sums, h.sumsOk, rfl, rfl⟩
  | put k v w =>
    refine ⟨_, rfl, ?_⟩
    cases k with
    | bootstrap k =>
      have hrest : ∀ st' : State F O, st'.updates = st.updates → st'.summaries = st.summaries →
          st'.fin = st.fin → st'.opt = st.opt → (st'.boots.map (·.root)).Nodup →
          (∀ root, bootRow st' root = bootStep c root (rb root) (.put (.bootstrap k) v w)) →
          Inv c st' (fun root => bootStep c root (rb root) (.put (.bootstrap k) v w))
            (fun p => updateStep c p (ru p) (.put (.bootstrap k) v w))
            (sumStep c rs (.put (.bootstrap k) v w)) (finStep c rf (.put (.bootstrap k) v w))
            (optStep c ro (.put (.bootstrap k) v w)) := by
        intro st' e1 e2 e3 e4 hn hb
        refine ⟨hn, hb, ?_, ?_, ?_, ?_, ?_⟩
        · intro p; rw [updateRow, e1]; exact h.updates p
        · rw [e2]; exact h.sums
        · rw [e2]; exact h.sumsOk
        · rw [e3]; exact h.fin
        · rw [e4]; exact h.opt
      rw [put]
      cases hd : c.decBoot v with
      | none =>
        refine hrest st rfl rfl rfl rfl h.nodup ?_
        intro root
        rw [h.boots, bootStep, hd]
        cases rb root <;> rfl
      | some x =>
        obtain ⟨slot, r⟩ := x
        dsimp only
        unfold sqlInt
        by_cases h63 : slot.toNat < 2 ^ 63
        · rw [if_pos h63]
          dsimp only
          by_cases hw : w 0 = true
          · rw [if_pos hw]
            have hr : (insertBoot st ⟨r, v, slot.toNat⟩).updates = st.updates ∧
                (insertBoot st ⟨r, v, slot.toNat⟩).summaries = st.summaries ∧
                (insertBoot st ⟨r, v, slot.toNat⟩).fin = st.fin ∧
                (insertBoot st ⟨r, v, slot.toNat⟩).opt = st.opt := by
              unfold insertBoot; split <;> simp
            refine hrest _ hr.1 hr.2.1 hr.2.2.1 hr.2.2.2 ?_ ?_
            · unfold insertBoot
              split
              · exact h.nodup
              · next hn =>
                dsimp only
                rw [List.map_append, List.nodup_append]
                refine ⟨h.nodup, by simp, ?_⟩
                intro a ha b hb
                simp only [List.map_cons, List.map_nil, List.mem_singleton] at hb
                subst hb
                rintro rfl
                obtain ⟨y, hy, e⟩ := List.mem_map.1 ha
                exact hn (List.any_eq_true.2 ⟨y, hy, by simpa using e⟩)
            · intro root
              rw [bootRow_insert, h.boots, bootStep, hd]
              cases hrb : rb root with
              | some x => rfl
              | none =>
                by_cases hroot : r = root <;> simp [hroot, h63, hw]
          · rw [if_neg hw]
            refine hrest st rfl rfl rfl rfl h.nodup ?_
            intro root
            rw [h.boots, bootStep, hd]
            cases rb root with
            | some x => rfl
            | none => simp [hw]
        · rw [if_neg h63]
          refine hrest st rfl rfl rfl rfl h.nodup ?_
          intro root
          rw [h.boots, bootStep, hd]
          cases rb root with
          | some x => rfl
          | none => simp only [Option.none_or, Option.bind_some]; rw [if_neg (fun hh => h63 hh.2.1)]
    | updates start count =>
      rw [put]
      cases hd : c.decUpdates v with
      | none =>
        refine ⟨h.nodup, h.boots, ?_, h.sums, h.sumsOk, h.fin, h.opt⟩
        intro p
        rw [h.updates, updateStep, hd]
        cases ru p <;> rfl
      | some us =>
        dsimp only
        obtain ⟨e1, e2, e3, e4⟩ := insertUpdates_rest (c := c) w ((periods start count).zip us) 0 st
        refine ⟨by rw [e1]; exact h.nodup, ?_, ?_, by rw [e2]; exact h.sums, by rw [e2]; exact h.sumsOk,
          by rw [e3]; exact h.fin, by rw [e4]; exact h.opt⟩
        · intro root
          rw [bootRow, e1]; exact h.boots root
        · intro p
          rw [updateStep, hd]
          by_cases hlt : start.toNat + count.toNat < 2 ^ 64
          · rw [periods_eq _ _ hlt, insertUpdates_row, h.updates]
            cases hru : ru p with
            | some x => rfl
            | none =>
              simp only [Option.map_none, Option.none_or, Option.bind_some, Nat.zero_add, hlt, true_and]
              split
              · rfl
              · rfl
          · rw [periods_wrap _ _ (by omega), List.zip_nil_left, insertUpdates, h.updates]
            cases hru : ru p with
            | some x => rfl
            | none => simp only [Option.none_or, Option.bind_some]; rw [if_neg (fun hh => hlt hh.1)]
    | finality s =>
      rw [put]
      cases hd : c.decFin v with
      | none =>
        refine ⟨h.nodup, h.boots, h.updates, h.sums, h.sumsOk, ?_, h.opt⟩
        rw [finStep, hd]; exact h.fin
      | some f =>
        refine ⟨h.nodup, h.boots, h.updates, h.sums, h.sumsOk, ?_, h.opt⟩
        rw [finStep, hd]; rfl
    | optimistic s =>
      rw [put]
      cases hd : c.decOpt v with
      | none =>
        refine ⟨h.nodup, h.boots, h.updates, h.sums, h.sumsOk, h.fin, ?_⟩
        rw [optStep, hd]; exact h.opt
      | some o =>
        refine ⟨h.nodup, h.boots, h.updates, h.sums, h.sumsOk, h.fin, ?_⟩
        rw [optStep, hd]; rfl
    | summaries e =>
      rw [put]
      by_cases hd : c.decSum v = true
      · rw [if_pos hd]
        unfold sqlInt
        by_cases h63 : e.toNat < 2 ^ 63
        · rw [if_pos h63]
          dsimp only
          by_cases hw : w 0 = true
          · rw [if_pos hw]
            refine ⟨h.nodup, h.boots, h.updates, ?_, ?_, h.fin, h.opt⟩
            · rw [sumStep, if_pos ⟨hd, h63, hw⟩]
            · intro r hr
              simp only [Option.some.injEq] at hr
              subst hr; exact hd
          · rw [if_neg hw]
            refine ⟨h.nodup, h.boots, h.updates, ?_, h.sumsOk, h.fin, h.opt⟩
            rw [sumStep, if_neg (fun hh => hw hh.2.2)]; exact h.sums
        · rw [if_neg h63]
          refine ⟨h.nodup, h.boots, h.updates, ?_, h.sumsOk, h.fin, h.opt⟩
          rw [sumStep, if_neg (fun hh => h63 hh.2.1)]; exact h.sums
      · rw [if_neg hd]
        refine ⟨h.nodup, h.boots, h.updates, ?_, h.sumsOk, h.fin, h.opt⟩
        rw [sumStep, if_neg (fun hh => hd hh.1)]; exact h.sums

theorem run_inv : ∀ (ops : List Op) {st : State F O} {rb ru rs rf ro}, Inv c st rb ru rs rf ro →
    ∃ st', run c st ops = some st' ∧
      Inv c st' (fun root => ops.foldl (bootStep c root) (rb root))
        (fun p => ops.foldl (updateStep c p) (ru p)) (ops.foldl (sumStep c) rs)
        (ops.foldl (finStep c) rf) (ops.foldl (optStep c) ro)
  | [], st, _, _, _, _, _, h => ⟨st, rfl, h⟩
  | op :: ops, st, rb, ru, rs, rf, ro, h => by
    obtain ⟨st', h1, h2⟩ := step_inv h op
    obtain ⟨st'', h3, h4⟩ := run_inv ops h2
    refine ⟨st'', ?_, h4⟩
    rw [run, h1]; exact h3

theorem init_inv : Inv c (init : State F O) (fun _ => none) (fun _ => none) none none none :=
  ⟨by simp [init], fun _ => rfl, fun _ => rfl, rfl, (fun r hr => by cases hr), rfl, rfl⟩

theorem reach_inv (c : Codec U F O) (hist : List Op) :
    ∃ st, run c init hist = some st ∧ Inv c st (fun root => bootRecord c root hist)
      (fun p => updateRecord c p hist) (sumRecord c hist) (finRecord c hist) (optRecord c hist) :=
  run_inv hist init_inv

theorem lookupUpdate_eq (st : State F O) {p : Nat} (h : p < 2 ^ 63) :
    lookupUpdate st p = .ok (updateRow st p) := by
  unfold lookupUpdate sqlInt
  rw [if_pos h]; rfl

/-- The loop over a range inside the signed integers. -/
theorem collect_spec {st : State F O} {ru : Nat → Option U}
    (hu : ∀ p, updateRow st p = (ru p).map c.encUpdate) (hc : UpdateCodec c) :
    ∀ (n a : Nat) (acc : List U), a + n ≤ 2 ^ 63 →
    (∃ us : List U, us.length = n ∧ (∀ i < n, ru (a + i) = us[i]?) ∧
      collectUpdates c st acc (List.range' a n) = .ok (some (acc ++ us))) ∨
    ((∃ i < n, ru (a + i) = none) ∧ collectUpdates c st acc (List.range' a n) = .ok none)
  | 0, a, acc, _ => .inl ⟨[], rfl, fun i hi => absurd hi (Nat.not_lt_zero i), by
      rw [List.range'_zero, collectUpdates, List.append_nil]⟩
  | n + 1, a, acc, h => by
    rw [List.range'_succ, collectUpdates, lookupUpdate_eq st (by omega), hu]
    cases hr : ru a with
    | none => exact .inr ⟨⟨0, by omega, by simpa using hr⟩, rfl⟩
    | some u =>
      dsimp only [Option.map_some]
      rw [hc u]
      dsimp only
      rcases collect_spec hu hc n (a + 1) (acc ++ [u]) (by omega) with ⟨us, h1, h2, h3⟩ | ⟨⟨i, hi, hn⟩, h3⟩
      · left
        refine ⟨u :: us, by simp [h1], ?_, by rw [h3]; simp⟩
        intro i hi
        cases i with
        | zero => simpa using hr
        | succ i =>
          rw [List.getElem?_cons_succ, ← h2 i (by omega)]
          congr 1; omega
      · right
        refine ⟨⟨i + 1, by omega, ?_⟩, h3⟩
        rw [← hn]; congr 1; omega

theorem anyStored_spec {st : State F O} : ∀ (n a : Nat), a + n ≤ 2 ^ 63 →
    anyStored st (List.range' a n) =
      .ok (if (List.range n).any (fun i => (updateRow st (a + i)).isSome) then .alreadyStored else .store)
  | 0, a, _ => rfl
  | n + 1, a, h => by
    rw [List.range'_succ, anyStored, lookupUpdate_eq st (by omega), List.range_succ_eq_map,
      List.any_cons, List.any_map, Nat.add_zero]
    cases hr : updateRow st a with
    | some v => rfl
    | none =>
      dsimp only
      rw [anyStored_spec n (a + 1) (by omega)]
      simp only [Option.isSome_none, Bool.false_or, Function.comp_def]
      congr 4
      funext i
      rw [show a + 1 + i = a + i.succ by omega]

end Verif.BeaconStore
