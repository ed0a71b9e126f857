import Verif.Props.BeaconNodeSpec
import Verif.Props.BeaconValidator
import Verif.Props.BeaconStore
import Verif.Lemmas.LightNodePortal

namespace Verif.BeaconNode
open Verif.BeaconValue Verif.BeaconValidator Verif.SszT Verif.Props
open Verif.LightClient (Env Client Msg headerRoot)
open BeaconFormat (Belongs)
open BeaconNodes

/-! ## Decoders -/

theorem decBoot_some {H bs slot root} (h : (codec H).decBoot bs = some (slot, root)) :
    ∃ v : Versioned Bootstrap, bs = BeaconFormat.value (.bootstrap v) ∧ slot = v.2.header.beacon.slot ∧
      root = (headerRoot H v.2.header.beacon).bytes := by
  simp only [codec] at h
  cases hd : decodeVersioned bootstrapCodec bs with
  | error e => rw [hd] at h; cases h
  | ok v =>
    rw [hd] at h
    have he := (C54_accepts (.bootstrap 0) bs (.bootstrap v)).mp (by simp only [Value.decode, hd]; rfl)
    simp only [Except.toOption, Option.map_some, Option.some.injEq, Prod.mk.injEq] at h
    exact ⟨v, he.2, h.1.symm, h.2.symm⟩

theorem decBoot_value (H) (v : Versioned Bootstrap) : (codec H).decBoot (BeaconFormat.value (.bootstrap v)) =
    some (v.2.header.beacon.slot, (headerRoot H v.2.header.beacon).bytes) := by
  have h := (C54_accepts (.bootstrap 0) _ (.bootstrap v)).mpr ⟨trivial, rfl⟩
  simp only [Value.decode] at h
  simp only [codec]
  cases hd : decodeVersioned bootstrapCodec (BeaconFormat.value (.bootstrap v)) with
  | error e => rw [hd] at h; cases h
  | ok v' => rw [hd] at h; cases h; rfl

theorem decUpdates_some {H bs us} (h : (codec H).decUpdates bs = some us) :
    ∃ l : BList (Versioned Update) 128, bs = BeaconFormat.value (.updates l) ∧ us = l.1 := by
  simp only [codec] at h
  cases hd : decodeUpdates bs with
  | error e => rw [hd] at h; cases h
  | ok l =>
    rw [hd] at h
    have he := (C54_accepts (.updatesByRange 0 0) bs (.updates l)).mp (by simp only [Value.decode, hd]; rfl)
    simp only [Except.toOption, Option.map_some, Option.some.injEq] at h
    exact ⟨l, he.2, h.symm⟩

theorem decUpdates_value (H) (l : BList (Versioned Update) 128) :
    (codec H).decUpdates (BeaconFormat.value (.updates l)) = some l.1 := by
  have h := (C54_accepts (.updatesByRange 0 0) _ (.updates l)).mpr ⟨trivial, rfl⟩
  simp only [Value.decode] at h
  simp only [codec]
  cases hd : decodeUpdates (BeaconFormat.value (.updates l)) with
  | error e => rw [hd] at h; cases h
  | ok v' => rw [hd] at h; cases h; rfl

theorem decFin_some {H bs v} (h : (codec H).decFin bs = some v) : bs = BeaconFormat.value (.finality v) := by
  simp only [codec] at h
  cases hd : decodeVersioned finalityCodec bs with
  | error e => rw [hd] at h; cases h
  | ok l =>
    rw [hd] at h
    cases h
    exact ((C54_accepts (.finalityUpdate 0) bs (.finality _)).mp (by simp only [Value.decode, hd]; rfl)).2

theorem decOpt_some {H bs v} (h : (codec H).decOpt bs = some v) : bs = BeaconFormat.value (.optimistic v) := by
  simp only [codec] at h
  cases hd : decodeVersioned optimisticCodec bs with
  | error e => rw [hd] at h; cases h
  | ok l =>
    rw [hd] at h
    cases h
    exact ((C54_accepts (.optimisticUpdate 0) bs (.optimistic _)).mp (by simp only [Value.decode, hd]; rfl)).2

theorem decFin_value (H) (v : Versioned FinalityUpdate) : (codec H).decFin (BeaconFormat.value (.finality v)) = some v := by
  have h := (C54_accepts (.finalityUpdate 0) _ (.finality v)).mpr ⟨trivial, rfl⟩
  simp only [Value.decode] at h
  simp only [codec]
  cases hd : decodeVersioned finalityCodec (BeaconFormat.value (.finality v)) with
  | error e => rw [hd] at h; cases h
  | ok v' => rw [hd] at h; cases h; rfl

theorem decOpt_value (H) (v : Versioned OptimisticUpdate) : (codec H).decOpt (BeaconFormat.value (.optimistic v)) = some v := by
  have h := (C54_accepts (.optimisticUpdate 0) _ (.optimistic v)).mpr ⟨trivial, rfl⟩
  simp only [Value.decode] at h
  simp only [codec]
  cases hd : decodeVersioned optimisticCodec (BeaconFormat.value (.optimistic v)) with
  | error e => rw [hd] at h; cases h
  | ok v' => rw [hd] at h; cases h; rfl

theorem decSum_true {H bs} (h : (codec H).decSum bs = true) : ∃ f x, bs = BeaconFormat.value (.summaries f x) := by
  simp only [codec] at h
  cases hd : decodeSummaries bs with
  | error e => rw [hd] at h; cases h
  | ok l => exact ⟨l.1, l.2, ((C54_accepts (.historicalSummaries 0) bs (.summaries l.1 l.2)).mp (by simp only [Value.decode, hd]; rfl)).2⟩

theorem decodeSummaries_value (f : Fork) (x : Summaries) :
    decodeSummaries (BeaconFormat.value (.summaries f x)) = .ok (f, x) := by
  have h := (C54_accepts (.historicalSummaries 0) _ (.summaries f x)).mpr ⟨trivial, rfl⟩
  simp only [Value.decode] at h
  cases hd : decodeSummaries (BeaconFormat.value (.summaries f x)) with
  | error e => rw [hd] at h; cases h
  | ok v' => rw [hd] at h; cases h; rfl

theorem decSum_value (H) (f : Fork) (x : Summaries) : (codec H).decSum (BeaconFormat.value (.summaries f x)) = true := by
  simp only [codec, decodeSummaries_value]; rfl

theorem encFin_value (H) (v : Versioned FinalityUpdate) : (codec H).encFin v = BeaconFormat.value (.finality v) :=
  C54_format (.finality v)

theorem encOpt_value (H) (v : Versioned OptimisticUpdate) : (codec H).encOpt v = BeaconFormat.value (.optimistic v) :=
  C54_format (.optimistic v)

theorem encUpdates_value (H) (l : BList (Versioned Update) 128) : (codec H).encUpdates l.1 = BeaconFormat.value (.updates l) :=
  C54_format (.updates l)

theorem updateCodec_ok (H) : BeaconSpec.UpdateCodec (codec H) := by
  intro u
  have hl := value_length (.updates ⟨[u], by simp⟩)
  have : (encodeVersioned updateCodec u).length ≤ (Value.encode (.updates ⟨[u], by simp⟩)).length := by
    rw [C54_format]
    simp only [BeaconFormat.value, BeaconFormat.list, List.map_cons, List.map_nil, List.length_append, List.flatten_cons,
      List.flatten_nil, encodeVersioned, digest_format, update_format, List.append_nil]
    omega
  show (decodeVersioned updateCodec (encodeVersioned updateCodec u)).toOption = some u
  rw [decode_encodeVersioned sound_update u (Nat.lt_of_le_of_lt this hl)]
  rfl

/-! ## The store -/

abbrev Src := ContentKey.Beacon → Value → Prop

/-- Everything in the store comes from `src`. -/
structure Facts (H : Id → Id → Id) (src : Src) (st : Store) : Prop where
  boots : ∀ r ∈ st.boots, ∃ (v : Versioned Bootstrap) (k : Id), r.value = BeaconFormat.value (.bootstrap v) ∧
    r.root = (headerRoot H v.2.header.beacon).bytes ∧ r.slot = v.2.header.beacon.slot.toNat ∧ src (.bootstrap k) (.bootstrap v)
  nodup : (st.boots.map (·.root)).Nodup
  updates : ∀ r ∈ st.updates, ∃ (u : Versioned Update) (start count : UInt64) (l : BList (Versioned Update) 128),
    r.2 = (codec H).encUpdate u ∧ start.toNat ≤ r.1 ∧ l.1[r.1 - start.toNat]? = some u ∧
      src (.updatesByRange start count) (.updates l)
  sums : ∀ r, st.summaries = some r → ∃ f x k, r.2 = BeaconFormat.value (.summaries f x) ∧ k.toNat = r.1 ∧
    src (.historicalSummaries k) (.summaries f x)
  fin : ∀ v, st.fin = some v → ∃ k, src (.finalityUpdate k) (.finality v)
  opt : ∀ v, st.opt = some v → ∃ k, src (.optimisticUpdate k) (.optimistic v)

theorem Facts.init (H src) : Facts H src BeaconStore.init :=
  ⟨nofun, .nil, nofun, nofun, nofun, nofun⟩

theorem Facts.updateRow {H src} {st : Store} (h : Facts H src st) {p bs} (hu : BeaconStore.updateRow st p = some bs) :
    ∃ u, (codec H).decUpdate bs = some u := by
  unfold BeaconStore.updateRow at hu
  obtain ⟨r, hr, rfl⟩ := Option.map_eq_some_iff.mp hu
  obtain ⟨u, _, _, _, he, -⟩ := h.updates r (List.mem_of_find?_eq_some hr)
  exact ⟨u, by rw [he]; exact updateCodec_ok H u⟩

theorem Facts.mono {H} {src src' : Src} {st : Store} (h : Facts H src st) (hs : ∀ k v, src k v → src' k v) : Facts H src' st where
  boots r hr := by obtain ⟨v, k, h1, h2, h3, h4⟩ := h.boots r hr; exact ⟨v, k, h1, h2, h3, hs _ _ h4⟩
  nodup := h.nodup
  updates r hr := by obtain ⟨u, s, c, l, h1, h2, h3, h4⟩ := h.updates r hr; exact ⟨u, s, c, l, h1, h2, h3, hs _ _ h4⟩
  sums r hr := by obtain ⟨f, x, k, h1, h2, h3⟩ := h.sums r hr; exact ⟨f, x, k, h1, h2, hs _ _ h3⟩
  fin v hv := by obtain ⟨k, h1⟩ := h.fin v hv; exact ⟨k, hs _ _ h1⟩
  opt v hv := by obtain ⟨k, h1⟩ := h.opt v hv; exact ⟨k, hs _ _ h1⟩

theorem insertUpdates_mem {H} {w : Nat → Bool} {l : BList (Versioned Update) 128} {start : Nat} :
    ∀ (us : List (Versioned Update)) (n a i : Nat) (st : Store), a = start + i → (∀ j u, us[j]? = some u → l.1[i + j]? = some u) →
    ∀ r ∈ (BeaconStore.insertUpdates (codec H) w i st ((List.range' a n).zip us)).updates,
      r ∈ st.updates ∨ ∃ u, r.2 = (codec H).encUpdate u ∧ start ≤ r.1 ∧ l.1[r.1 - start]? = some u
  | [], n, a, i, st, _, _, r, hr => by
    rw [List.zip_nil_right] at hr
    exact Or.inl hr
  | u :: us, 0, a, i, st, _, _, r, hr => Or.inl hr
  | u :: us, n + 1, a, i, st, ha, hu, r, hr => by
    rw [List.range'_succ, List.zip_cons_cons, BeaconStore.insertUpdates] at hr
    rcases insertUpdates_mem (l := l) (start := start) us n (a + 1) (i + 1) _ (by omega) (fun j u' hj => by
      have := hu (j + 1) u' (by simpa using hj)
      rw [show i + 1 + j = i + (j + 1) by omega]; exact this) r hr with h | h
    · unfold BeaconStore.writeUpdate BeaconStore.sqlInt at h
      split at h
      · exact Or.inl h
      · next p hp =>
        have : p = a := by
          split at hp
          · cases hp; rfl
          · cases hp
        subst this
        split at h
        · unfold BeaconStore.insertUpdate at h
          split at h
          · exact Or.inl h
          · rcases List.mem_append.mp h with h | h
            · exact Or.inl h
            · simp only [List.mem_singleton] at h
              subst h
              refine Or.inr ⟨u, rfl, by simp only; omega, ?_⟩
              have := hu 0 u rfl
              simp only [show p - start = i + 0 by omega]
              exact this
        · exact Or.inl h
    · exact Or.inr h

theorem Facts.put {H} {src : Src} {st : Store} (h : Facts H src st) (key : ContentKey.Beacon) (content : Bytes) (w : Nat → Bool)
    (hs : ∀ v, Belongs key v → content = BeaconFormat.value v → src key v) :
    Facts H src (BeaconStore.put (codec H) st (storeKey key) content w).1 := by
  cases key with
  | bootstrap k =>
    simp only [storeKey, BeaconStore.put]
    split
    · exact h
    · next slot root hd =>
      obtain ⟨v, hc, h1, h2⟩ := decBoot_some hd
      clear hd
      split
      · exact h
      · next sl hsl =>
        have hsl' : sl = slot.toNat := by
          unfold BeaconStore.sqlInt at hsl
          split at hsl
          · cases hsl; rfl
          · cases hsl
        split
        · unfold BeaconStore.insertBoot
          split
          · exact h
          · next hany =>
            refine ⟨?_, ?_, h.updates, h.sums, h.fin, h.opt⟩
            · intro r hr
              rcases List.mem_append.mp hr with hr | hr
              · exact h.boots r hr
              · simp only [List.mem_singleton] at hr
                subst hr
                exact ⟨v, k, hc, h2, by rw [hsl', h1], hs _ trivial hc⟩
            · rw [List.map_append, List.nodup_append]
              refine ⟨h.nodup, by simp, ?_⟩
              intro a ha b hb
              simp only [List.map_cons, List.map_nil, List.mem_singleton] at hb
              subst hb
              rintro rfl
              obtain ⟨x, hx, he⟩ := List.mem_map.mp ha
              exact hany (List.any_eq_true.mpr ⟨x, hx, by simpa using he⟩)
        · exact h
  | updatesByRange start count =>
    simp only [storeKey, BeaconStore.put]
    split
    · exact h
    · next us hd =>
      obtain ⟨l, rfl, rfl⟩ := decUpdates_some hd
      have hr := BeaconStore.insertUpdates_rest (c := codec H) w ((BeaconStore.periods start count).zip l.1) 0 st
      refine ⟨hr.1 ▸ h.boots, hr.1 ▸ h.nodup, ?_, hr.2.1 ▸ h.sums, hr.2.2.1 ▸ h.fin, hr.2.2.2 ▸ h.opt⟩
      intro r hm
      rcases insertUpdates_mem (l := l) (start := start.toNat) l.1 _ start.toNat 0 st rfl (fun j u hj => by simpa using hj) r hm with hm | ⟨u, h1, h2, h3⟩
      · exact h.updates r hm
      · exact ⟨u, start, count, l, h1, h2, h3, hs _ trivial rfl⟩
  | finalityUpdate slot =>
    simp only [storeKey, BeaconStore.put]
    split
    · exact h
    · next f hd =>
      refine ⟨h.boots, h.nodup, h.updates, h.sums, ?_, h.opt⟩
      intro v hv
      cases hv
      exact ⟨slot, hs _ trivial (decFin_some hd)⟩
  | optimisticUpdate slot =>
    simp only [storeKey, BeaconStore.put]
    split
    · exact h
    · next f hd =>
      refine ⟨h.boots, h.nodup, h.updates, h.sums, h.fin, ?_⟩
      intro v hv
      cases hv
      exact ⟨slot, hs _ trivial (decOpt_some hd)⟩
  | historicalSummaries epoch =>
    simp only [storeKey, BeaconStore.put]
    split
    · next hd =>
      obtain ⟨f, x, rfl⟩ := decSum_true hd
      split
      · exact h
      · next e he =>
        have he' : e = epoch.toNat := by
          unfold BeaconStore.sqlInt at he
          split at he
          · cases he; rfl
          · cases he
        split
        · refine ⟨h.boots, h.nodup, h.updates, ?_, h.fin, h.opt⟩
          intro r hr
          cases hr
          exact ⟨f, x, epoch, rfl, he'.symm, hs _ trivial rfl⟩
        · exact h
    · exact h

theorem Facts.putIf {H} {src : Src} {st : Store} (h : Facts H src st) (ask : Bool) (key : ContentKey.Beacon) (content : Bytes)
    (w : Nat → Bool) (hs : ∀ v, Belongs key v → content = BeaconFormat.value v → src key v) :
    Facts H src (putIf H ask st key content w) := by
  unfold BeaconNode.putIf
  split
  · split
    · exact h.put key content w hs
    · exact h
  · exact h.put key content w hs

theorem Facts.prune {H} {src : Src} {st : Store} (h : Facts H src st) (t : Nat) : Facts H src (BeaconStore.prune st t) where
  boots r hr := h.boots r (List.mem_filter.mp hr).1
  nodup := h.nodup.sublist (List.Sublist.map _ List.filter_sublist)
  updates := h.updates
  sums := h.sums
  fin := h.fin
  opt := h.opt

theorem Facts.reopen {H} {src : Src} {st : Store} (h : Facts H src st) :
    BeaconStore.reopen (codec H) st = some { st with fin := none, opt := none } := by
  unfold BeaconStore.reopen
  cases hs : st.summaries with
  | none => rfl
  | some r =>
    obtain ⟨f, x, k, h1, -⟩ := h.sums r hs
    simp only [h1, decSum_value, if_true]

theorem Facts.reopened {H} {src : Src} {st : Store} (h : Facts H src st) : Facts H src { st with fin := none, opt := none } :=
  ⟨h.boots, h.nodup, h.updates, h.sums, nofun, nofun⟩

/-! ## What the store gives -/

theorem collect_all {H} {st : Store} : ∀ (us : List (Versioned Update)) (a : Nat) (acc : List (Versioned Update)),
    a + us.length ≤ 2 ^ 63 → (∀ (i : Nat) u, us[i]? = some u → BeaconStore.updateRow st (a + i) = some ((codec H).encUpdate u)) →
    BeaconStore.collectUpdates (codec H) st acc (List.range' a us.length) = .ok (some (acc ++ us))
  | [], a, acc, _, _ => by simp [BeaconStore.collectUpdates]
  | u :: us, a, acc, hl, h => by
    rw [List.length_cons] at hl
    rw [List.length_cons, List.range'_succ, BeaconStore.collectUpdates, BeaconStore.lookupUpdate_eq st (by omega),
      show BeaconStore.updateRow st a = some ((codec H).encUpdate u) from h 0 u rfl]
    dsimp only
    rw [updateCodec_ok H u]
    dsimp only
    rw [collect_all us (a + 1) _ (by omega), List.append_assoc]; rfl
    intro i v hv
    rw [show a + 1 + i = a + (i + 1) by omega]
    exact h (i + 1) v hv

theorem collect_ok {H} {st : Store} : ∀ (ps : List Nat) (acc us : List (Versioned Update)),
    BeaconStore.collectUpdates (codec H) st acc ps = .ok (some us) →
    ∃ us', us = acc ++ us' ∧ us'.length = ps.length ∧ ∀ (i : Nat) u, us'[i]? = some u →
      ∃ p v, ps[i]? = some p ∧ (p, v) ∈ st.updates ∧ (codec H).decUpdate v = some u
  | [], acc, us, h => by
    cases h
    exact ⟨[], by simp, rfl, nofun⟩
  | p :: ps, acc, us, h => by
    rw [BeaconStore.collectUpdates] at h
    split at h
    · cases h
    · cases h
    · next v hv =>
      split at h
      · cases h
      · next u hu =>
        obtain ⟨us', h1, h2, h3⟩ := collect_ok ps _ us h
        refine ⟨u :: us', by rw [h1]; simp, by simp [h2], ?_⟩
        intro i u' hi
        cases i with
        | zero =>
          simp only [List.getElem?_cons_zero, Option.some.injEq] at hi
          subst hi
          refine ⟨p, v, rfl, ?_, hu⟩
          unfold BeaconStore.lookupUpdate BeaconStore.sqlInt at hv
          split at hv
          · cases hv
          · next q hq =>
            have : q = p := by
              split at hq
              · cases hq; rfl
              · cases hq
            subst this
            simp only [Except.ok.injEq] at hv
            cases hf : st.updates.find? fun r => decide (r.1 = q) with
            | none => rw [hf] at hv; cases hv
            | some r =>
              rw [hf] at hv
              simp only [Option.map_some, Option.some.injEq] at hv
              have hm := List.mem_of_find?_eq_some hf
              have he := List.find?_some hf
              simp only [decide_eq_true_eq] at he
              rw [← he, ← hv]; exact hm
        | succ i => exact h3 i u' (by simpa using hi)

theorem lookupBoot_mem {st : Store} {root bs : Bytes} (h : BeaconStore.lookupBoot st root = some bs) :
    ∃ r ∈ st.boots, r.root = root ∧ r.value = bs := by
  unfold BeaconStore.lookupBoot at h
  cases hf : st.boots.find? fun r => decide (r.root = root) with
  | none => rw [hf] at h; cases h
  | some r =>
    rw [hf] at h
    simp only [Option.map_some, Option.some.injEq] at h
    have he := List.find?_some hf
    simp only [decide_eq_true_eq] at he
    exact ⟨r, List.mem_of_find?_eq_some hf, he, h⟩

theorem lookupBoot_of_mem {st : Store} (hn : (st.boots.map (·.root)).Nodup) {r : BeaconStore.BootRow} (hr : r ∈ st.boots) :
    BeaconStore.lookupBoot st r.root = some r.value := by
  unfold BeaconStore.lookupBoot
  generalize st.boots = l at hn hr
  induction l with
  | nil => cases hr
  | cons a l ih =>
    rw [List.map_cons, List.nodup_cons] at hn
    rcases List.mem_cons.mp hr with rfl | hr
    · simp
    · have : a.root ≠ r.root := fun e => hn.1 (e ▸ List.mem_map.mpr ⟨r, hr, rfl⟩)
      rw [List.find?_cons_of_neg (by simpa using this)]
      exact ih hn.2 hr

theorem value_boot_inj {v v' : Versioned Bootstrap}
    (h : BeaconFormat.value (.bootstrap v) = BeaconFormat.value (.bootstrap v')) : v = v' := by
  have h1 := (C54_accepts (.bootstrap 0) _ (.bootstrap v)).mpr ⟨trivial, rfl⟩
  have h2 := (C54_accepts (.bootstrap 0) _ (.bootstrap v')).mpr ⟨trivial, rfl⟩
  rw [h, h2] at h1
  cases h1; rfl

theorem get_summaries (env : Env) (s : BeaconNode.State) (epoch : UInt64) (bs : Bytes) :
    BeaconNode.get env s (.historicalSummaries epoch) = some bs ↔
      epoch.toNat < 2 ^ 63 ∧ ∃ e, s.store.summaries = some (e, bs) ∧ epoch.toNat ≤ e := by
  simp only [BeaconNode.get, storeKey, BeaconStore.get, BeaconStore.lookupSummaries, BeaconStore.sqlInt]
  by_cases h : epoch.toNat < 2 ^ 63
  · rw [if_pos h]
    cases hs : s.store.summaries with
    | none => simp
    | some r =>
      obtain ⟨e, b⟩ := r
      by_cases he : epoch.toNat ≤ e
      · simp only [if_pos he, Option.some.injEq, h, true_and, Prod.mk.injEq]
        exact ⟨fun hb => ⟨e, ⟨rfl, hb⟩, he⟩, fun ⟨_, ⟨_, hb⟩, _⟩ => hb⟩
      · simp only [if_neg he, h, true_and, Option.some.injEq, Prod.mk.injEq]
        exact ⟨nofun, fun ⟨_, ⟨h1, _⟩, h2⟩ => absurd (h1 ▸ h2) he⟩
  · rw [if_neg h]
    exact ⟨nofun, fun h' => absurd h'.1 h⟩

/-- A write after a question to the store leaves the summaries or brings later ones. -/
theorem putIf_summaries (H) (st : Store) (key : ContentKey.Beacon) (content : Bytes) (w : Nat → Bool) :
    (putIf H true st key content w).summaries = st.summaries ∨
    ∃ e, (putIf H true st key content w).summaries = some (e, content) ∧ e < 2 ^ 63 ∧ ∀ r, st.summaries = some r → r.1 < e := by
  simp only [putIf, if_true]
  cases key with
  | historicalSummaries e' =>
    cases hsh : BeaconStore.shouldWeStore (codec H) st (storeKey (.historicalSummaries e')) with
    | error _ => exact .inl rfl
    | ok r =>
      cases r with
      | alreadyStored => exact .inl rfl
      | store =>
        simp only [storeKey, BeaconStore.shouldWeStore, BeaconStore.lookupSummaries, BeaconStore.sqlInt] at hsh
        simp only [storeKey, BeaconStore.put, BeaconStore.sqlInt]
        split
        · by_cases h63 : e'.toNat < 2 ^ 63
          · simp only [if_pos h63] at hsh ⊢
            split
            · refine .inr ⟨e'.toNat, rfl, h63, fun r hr => ?_⟩
              rw [hr] at hsh
              by_cases hle : e'.toNat ≤ r.1
              · simp [hle] at hsh
              · omega
            · exact .inl rfl
          · simp only [if_neg h63] at hsh
            cases hsh
        · exact .inl rfl
  | bootstrap k =>
    left
    split
    · simp only [storeKey, BeaconStore.put]
      split
      · rfl
      · split
        · rfl
        · split
          · unfold BeaconStore.insertBoot; split <;> rfl
          · rfl
    · rfl
  | updatesByRange a b =>
    left
    split
    · simp only [storeKey, BeaconStore.put]
      split
      · rfl
      · exact (BeaconStore.insertUpdates_rest _ _ _ _).2.1
    · rfl
  | finalityUpdate k =>
    left
    split
    · simp only [storeKey, BeaconStore.put]; split <;> rfl
    · rfl
  | optimisticUpdate k =>
    left
    split
    · simp only [storeKey, BeaconStore.put]; split <;> rfl
    · rfl

theorem reopen_summaries {H} {st st' : Store} (h : BeaconStore.reopen (codec H) st = some st') : st'.summaries = st.summaries := by
  unfold BeaconStore.reopen at h
  split at h
  · cases h; rfl
  · split at h
    · cases h; rfl
    · cases h

theorem get_some {env : Env} {s : State} {key : ContentKey.Beacon} {bs : Bytes} (h : get env s key = some bs) :
    BeaconStore.get (codec env.H) s.store (storeKey key) = .ok (some bs) := by
  unfold get at h
  split at h
  · next r hr => rw [hr, h]
  · cases h

theorem get_genuine {env : Env} {given : Option Id} {tie : Nat} {es : List Ev} {s : State}
    (hf : Facts env.H (Source env given tie es) s.store) (key : ContentKey.Beacon) (bs : Bytes) (h : get env s key = some bs) :
    ∃ v, bs = BeaconFormat.value v ∧ Genuine env given tie es key v := by
  replace h := get_some h
  cases key with
  | bootstrap root =>
    simp only [storeKey, BeaconStore.get, Except.ok.injEq] at h
    obtain ⟨r, hr, h1, h2⟩ := lookupBoot_mem h
    obtain ⟨v, k, e1, e2, -, e4⟩ := hf.boots r hr
    exact ⟨.bootstrap v, h2 ▸ e1, Id.bytes_injective (e2.symm.trans h1), k, e4⟩
  | updatesByRange start count =>
    simp only [storeKey, BeaconStore.get] at h
    split at h
    · cases h
    · cases h
    · next us hus =>
      split at h
      · next hl =>
        simp only [Except.ok.injEq, Option.some.injEq] at h
        obtain ⟨us', e1, e2, e3⟩ := collect_ok _ _ _ hus
        rw [List.nil_append] at e1
        subst e1
        refine ⟨.updates ⟨us, hl⟩, h ▸ encUpdates_value env.H ⟨us, hl⟩, ?_, ?_⟩
        · intro hw
          show us.length = count.toNat
          rw [e2, BeaconStore.periods_eq _ _ hw, List.length_range']
        · intro i u hi
          obtain ⟨p, v, f1, f2, f3⟩ := e3 i u hi
          have hp : p = start.toNat + i := by
            simp only [BeaconStore.periods] at f1
            obtain ⟨hlt, he⟩ := List.getElem?_eq_some_iff.mp f1
            rw [← he, List.getElem_range']
            omega
          obtain ⟨u', start', count', l', g1, g2, g3, g4⟩ := hf.updates _ f2
          simp only at g1 g2 g3
          rw [g1, updateCodec_ok env.H u'] at f3
          cases f3
          subst hp
          exact ⟨start', count', l', g2, g3, g4⟩
      · cases h
  | finalityUpdate slot =>
    simp only [storeKey, BeaconStore.get, Except.ok.injEq] at h
    cases hg : BeaconStore.getFinality (codec env.H) s.store slot with
    | none => rw [hg] at h; cases h
    | some v =>
      rw [hg] at h
      simp only [Option.map_some, Option.some.injEq] at h
      unfold BeaconStore.getFinality at hg
      split at hg
      · cases hg
      · next f hfin =>
        split at hg
        · cases hg
        · next sl hsl =>
          split at hg
          · next hle =>
            cases hg
            refine ⟨.finality v, h ▸ encFin_value env.H v, ?_, hf.fin v hfin⟩
            obtain ⟨f, u⟩ := v
            cases f <;> first | cases hsl | skip
            exact ⟨u, rfl, hle⟩
          · cases hg
  | optimisticUpdate slot =>
    simp only [storeKey, BeaconStore.get, Except.ok.injEq] at h
    cases hg : BeaconStore.getOptimistic (codec env.H) s.store slot with
    | none => rw [hg] at h; cases h
    | some v =>
      rw [hg] at h
      simp only [Option.map_some, Option.some.injEq] at h
      unfold BeaconStore.getOptimistic at hg
      split at hg
      · cases hg
      · next f hopt =>
        split at hg
        · next hle =>
          cases hg
          exact ⟨.optimistic v, h ▸ encOpt_value env.H v, hle, hf.opt v hopt⟩
        · cases hg
  | historicalSummaries epoch =>
    simp only [storeKey, BeaconStore.get, BeaconStore.lookupSummaries] at h
    split at h
    · cases h
    · next e he =>
      have he' : e = epoch.toNat := by
        unfold BeaconStore.sqlInt at he
        split at he
        · cases he; rfl
        · cases he
      split at h
      · cases h
      · next r hr =>
        simp only [Except.ok.injEq] at h
        split at h
        · next hle =>
          cases h
          obtain ⟨f, x, k, e1, e2, e3⟩ := hf.sums r hr
          refine ⟨.summaries f x, e1, k, ?_, e3⟩
          rw [UInt64.le_iff_toNat_le, e2, ← he']
          exact hle
        · cases h

/-! ## Runs -/

theorem run_append (env : Env) (a b : List Ev) (s : State) :
    run env s (a ++ b) = (run env s a).bind fun t => run env t b := by
  induction a generalizing s with
  | nil => rfl
  | cons e a ih =>
    simp only [List.cons_append, run]
    split
    · exact ih _
    · rfl

theorem lives_snoc {env given tie es s s' e} (h : Lives env given tie es s) (hs : step env s e = some s') :
    Lives env given tie (es ++ [e]) s' := by
  unfold Lives at *
  rw [run_append, h]
  simp only [Option.bind_some, run, hs]

theorem configured_append (given : Option Id) (a b : List Ev) :
    configured given (a ++ b) = configured (configured given a) b := by
  induction a generalizing given with
  | nil => rfl
  | cons e a ih => cases e <;> exact ih _

section
variable {env : Env} {given : Option Id} {tie : Nat}

theorem AcceptedIn.more {es s k v} (more : List Ev) (h : AcceptedIn env given tie es s k v) :
    AcceptedIn env given tie (es ++ more) s k v := by
  obtain ⟨pre, now, post, rfl, h⟩ := h
  exact ⟨pre, now, post ++ more, by simp, h⟩

theorem Operated.more {es k v} (more : List Ev) (h : Operated es k v) : Operated (es ++ more) k v := by
  obtain ⟨h0, ask, w, h⟩ := h
  exact ⟨h0, ask, w, List.mem_append_left _ h⟩

theorem Source.more {es k v} (more : List Ev) (h : Source env given tie es k v) : Source env given tie (es ++ more) k v := by
  rcases h with ⟨s, h⟩ | h
  · exact Or.inl ⟨s, AcceptedIn.more more h⟩
  · exact Or.inr (Operated.more more h)

theorem clientConfig_eq (root : Id) : clientConfig root = LightLife.mainnetConfig root := rfl

theorem latestRoot_none {st : Store} {tie : Nat} (h : latestRoot st tie = none) : st.boots = [] := by
  unfold latestRoot at h
  simp only [Option.map_eq_none_iff, List.getElem?_eq_none_iff] at h
  generalize ht : (st.boots.filter fun r => st.boots.all fun x => decide (x.slot ≤ r.slot)) = top at h
  have hlen : top.length = 0 := by
    rcases Nat.eq_zero_or_pos top.length with h0 | h0
    · exact h0
    · have := Nat.mod_lt tie h0; omega
  have htop : top = [] := List.eq_nil_of_length_eq_zero hlen
  subst htop
  -- a nonempty list has a row of maximal slot
  have key : ∀ l : List BeaconStore.BootRow, l ≠ [] → ∃ r ∈ l, ∀ x ∈ l, x.slot ≤ r.slot := by
    intro l
    induction l with
    | nil => intro h; exact absurd rfl h
    | cons a l ih =>
      intro _
      by_cases hl : l = []
      · subst hl; exact ⟨a, by simp, by simp⟩
      · obtain ⟨r, hr, hm⟩ := ih hl
        by_cases hc : r.slot ≤ a.slot
        · refine ⟨a, by simp, ?_⟩
          intro x hx
          rcases List.mem_cons.mp hx with rfl | hx
          · exact Nat.le_refl _
          · exact Nat.le_trans (hm x hx) hc
        · refine ⟨r, List.mem_cons_of_mem _ hr, ?_⟩
          intro x hx
          rcases List.mem_cons.mp hx with rfl | hx
          · omega
          · exact hm x hx
  apply Classical.byContradiction
  intro hne
  obtain ⟨r, hr, hm⟩ := key _ hne
  have : r ∈ st.boots.filter fun r => st.boots.all fun x => decide (x.slot ≤ r.slot) := by
    rw [List.mem_filter]
    exact ⟨hr, List.all_eq_true.mpr fun x hx => by simpa using hm x hx⟩
  rw [ht] at this
  cases this

theorem latestRoot_some {st : Store} {tie : Nat} {root : Id} (h : latestRoot st tie = some root) :
    ∃ r ∈ st.boots, (∀ x ∈ st.boots, x.slot ≤ r.slot) ∧ root = BitVec.ofNat 256 (fromBe r.root) := by
  unfold latestRoot at h
  simp only [Option.map_eq_some_iff] at h
  obtain ⟨r, h1, h2⟩ := h
  have hm := List.mem_of_getElem? h1
  rw [List.mem_filter] at hm
  refine ⟨r, hm.1, ?_, h2.symm⟩
  intro x hx
  simpa using List.all_eq_true.mp hm.2 x hx

theorem ofBytes (x : Id) : BitVec.ofNat 256 (fromBe x.bytes) = x := by
  rw [Id.fromBe_bytes, BitVec.ofNat_toNat, BitVec.setWidth_eq]

/-- The invariant. -/
structure Inv (env : Env) (given : Option Id) (tie : Nat) (es : List Ev) (s : State) : Prop where
  lives : Lives env given tie es s
  facts : Facts env.H (Source env given tie es) s.store
  held : ∀ p ∈ s.held, ∃ v s', p.2 = BeaconFormat.value v ∧ AcceptedIn env given tie es s' p.1 v
  client : ∀ c, s.client = some c → LightLife.Anchored env (LightLife.mainnetConfig s.root) c
  chosen : ∀ r, configured given es = some r → s.root = r
  trust : configured given es = none → s.root = defaultRoot ∨
    ∃ k v, Source env given tie es (.bootstrap k) (.bootstrap v) ∧ headerRoot env.H v.2.header.beacon = s.root

theorem Inv.init : Inv env given tie [] (fresh given tie BeaconStore.init) where
  lives := rfl
  facts := Facts.init _ _
  held := nofun
  client := nofun
  chosen r hr := by
    have : given = some r := hr
    subst this; rfl
  trust h := by
    have : given = none := h
    subst this; exact Or.inl rfl

theorem processAll_reached {cfg c d} : ∀ {msgs e}, LightLife.Reached env cfg c d →
    LightClient.processAll env cfg d msgs = (e, true) → LightLife.Reached env cfg c e
  | [], e, h, hp => by cases hp; exact h
  | (now, m) :: rest, e, h, hp => by
    rw [LightClient.processAll] at hp
    split at hp
    · cases hp
    · next d' hd => exact processAll_reached (h.step hd) hp

theorem step_started {s prior now b msgs} : step env s (.started prior now b msgs) = some s ∨
    ∃ c0 c, s.client = none ∧ LightClient.bootstrap env (clientConfig s.root) now prior b = .ok c0 ∧
      LightClient.processAll env (clientConfig s.root) c0 msgs = (c, true) ∧
      step env s (.started prior now b msgs) = some { s with client := some c } := by
  simp only [step]
  split
  · exact Or.inl rfl
  · next hc =>
    split
    · exact Or.inl rfl
    · next c0 hb =>
      split
      · next c hp => exact Or.inr ⟨c0, c, hc, hb, hp, rfl⟩
      · exact Or.inl rfl

theorem step_heard {s now m} : step env s (.heard now m) = some s ∨
    ∃ c0 c, s.client = some c0 ∧ LightClient.process env (clientConfig s.root) now c0 m = .ok c ∧
      step env s (.heard now m) = some { s with client := some c } := by
  simp only [step]
  split
  · exact Or.inl rfl
  · next c0 hc =>
    split
    · next c hp => exact Or.inr ⟨c0, c, hc, hp, rfl⟩
    · exact Or.inl rfl

theorem view_eq (c : Option Client) : oracleOf c = view c := rfl
theorem net_eq : net = mainnet := rfl

theorem Inv.same {es s e} (h : Inv env given tie es s) (hs : step env s e = some s)
    (hc : configured given (es ++ [e]) = configured given es) : Inv env given tie (es ++ [e]) s where
  lives := lives_snoc h.lives hs
  facts := h.facts.mono fun _ _ => Source.more _
  held p hp := by obtain ⟨v, s', h1, h2⟩ := h.held p hp; exact ⟨v, s', h1, AcceptedIn.more _ h2⟩
  client := h.client
  chosen r hr := h.chosen r (hc ▸ hr)
  trust hn := (h.trust (hc ▸ hn)).imp_right fun ⟨k, v, h1, h2⟩ => ⟨k, v, Source.more _ h1, h2⟩

theorem Inv.step {es s} (h : Inv env given tie es s) (e : Ev) (hl : Late [e]) :
    ∃ s', BeaconNode.step env s e = some s' ∧ Inv env given tie (es ++ [e]) s' := by
  have hheld : ∀ p ∈ s.held, ∃ v s', p.2 = BeaconFormat.value v ∧ AcceptedIn env given tie (es ++ [e]) s' p.1 v := by
    intro p hp; obtain ⟨v, s', h1, h2⟩ := h.held p hp; exact ⟨v, s', h1, AcceptedIn.more _ h2⟩
  have hfacts := h.facts.mono (src' := Source env given tie (es ++ [e])) fun _ _ => Source.more _
  have htrust : configured given es = none → s.root = defaultRoot ∨
      ∃ k v, Source env given tie (es ++ [e]) (.bootstrap k) (.bootstrap v) ∧ headerRoot env.H v.2.header.beacon = s.root :=
    fun hn => (h.trust hn).imp_right fun ⟨k, v, h1, h2⟩ => ⟨k, v, Source.more _ h1, h2⟩
  cases e with
  | arrived key content now =>
    have hc : configured given (es ++ [.arrived key content now]) = configured given es := by rw [configured_append]; rfl
    have hnow := hl key content now (by simp)
    cases hv : validate env net now (oracleOf s.client) key content with
    | valid =>
      have hs : BeaconNode.step env s (.arrived key content now) = some { s with held := s.held ++ [(key, content)] } := by
        simp only [BeaconNode.step, hv]
      refine ⟨_, hs, lives_snoc h.lives hs, hfacts, ?_, h.client, hc ▸ h.chosen, hc ▸ htrust⟩
      intro p hp
      rcases List.mem_append.mp hp with hp | hp
      · exact hheld p hp
      · simp only [List.mem_singleton] at hp
        subst hp
        obtain ⟨v, h1, h2, h3⟩ := (C55_accepts env net now _ key content hnow).mp hv
        exact ⟨v, s, h2, es, now, [], by rw [h2], h.lives, h1, h3⟩
    | invalid =>
      have hs : BeaconNode.step env s (.arrived key content now) = some s := by simp only [BeaconNode.step, hv]
      exact ⟨s, hs, h.same hs hc⟩
    | abort =>
      have hs : BeaconNode.step env s (.arrived key content now) = some s := by simp only [BeaconNode.step, hv]
      exact ⟨s, hs, h.same hs hc⟩
  | keep i w =>
    have hc : configured given (es ++ [.keep i w]) = configured given es := by rw [configured_append]; rfl
    cases hg : s.held[i]? with
    | none =>
      have hs : BeaconNode.step env s (.keep i w) = some s := by simp only [BeaconNode.step, hg]
      exact ⟨s, hs, h.same hs hc⟩
    | some p =>
      obtain ⟨key, content⟩ := p
      have hs : BeaconNode.step env s (.keep i w) = some { s with store := putIf env.H true s.store key content w } := by
        simp only [BeaconNode.step, hg]
      refine ⟨_, hs, lives_snoc h.lives hs, ?_, hheld, h.client, hc ▸ h.chosen, hc ▸ htrust⟩
      refine hfacts.putIf true key content w ?_
      intro v hv hcont
      obtain ⟨v', s', h1, h2⟩ := hheld _ (List.mem_of_getElem? hg)
      simp only at h1 h2
      have hv' : v = v' := by
        have b' : Belongs key v' := by obtain ⟨_, _, _, _, _, hb, _⟩ := h2; exact hb
        have e1 := (C54_accepts key content v).mpr ⟨hv, hcont⟩
        have e2 := (C54_accepts key content v').mpr ⟨b', h1⟩
        rw [e1] at e2
        cases e2; rfl
      subst hv'
      exact Or.inl ⟨s', h2⟩
  | operator ask key content w =>
    have hc : configured given (es ++ [.operator ask key content w]) = configured given es := by rw [configured_append]; rfl
    have hs : BeaconNode.step env s (.operator ask key content w) =
        some { s with store := putIf env.H ask s.store key content w } := rfl
    refine ⟨_, hs, lives_snoc h.lives hs, ?_, hheld, h.client, hc ▸ h.chosen, hc ▸ htrust⟩
    refine hfacts.putIf ask key content w ?_
    intro v hv hcont
    exact Or.inr ⟨hv, ask, w, by rw [hcont]; simp⟩
  | prune now =>
    have hc : configured given (es ++ [.prune now]) = configured given es := by rw [configured_append]; rfl
    have hs : BeaconNode.step env s (.prune now) = some { s with store := BeaconStore.prune s.store (now - 864000) } := rfl
    exact ⟨_, hs, lives_snoc h.lives hs, hfacts.prune _, hheld, h.client, hc ▸ h.chosen, hc ▸ htrust⟩
  | started prior now b msgs =>
    have hc : configured given (es ++ [.started prior now b msgs]) = configured given es := by rw [configured_append]; rfl
    rcases step_started (env := env) (s := s) (prior := prior) (now := now) (b := b) (msgs := msgs) with hs | ⟨c0, c, -, h1, h2, hs⟩
    · exact ⟨s, hs, h.same hs hc⟩
    · refine ⟨_, hs, lives_snoc h.lives hs, hfacts, hheld, ?_, hc ▸ h.chosen, hc ▸ htrust⟩
      intro c' hc'
      cases hc'
      rw [clientConfig_eq] at h1 h2
      obtain ⟨-, g2, g3, g4⟩ := LightNode.bootstrap_ok _ _ _ _ _ _ h1
      exact ⟨b, prior, g2, g3, processAll_reached (g4 ▸ .refl) h2⟩
  | heard now m =>
    have hc : configured given (es ++ [.heard now m]) = configured given es := by rw [configured_append]; rfl
    rcases step_heard (env := env) (s := s) (now := now) (m := m) with hs | ⟨c0, c, h0, h1, hs⟩
    · exact ⟨s, hs, h.same hs hc⟩
    · refine ⟨_, hs, lives_snoc h.lives hs, hfacts, hheld, ?_, hc ▸ h.chosen, hc ▸ htrust⟩
      intro c' hc'
      cases hc'
      obtain ⟨b, prior, g2, g3, g4⟩ := h.client c0 h0
      exact ⟨b, prior, g2, g3, g4.step h1⟩
  | restart given' tie' =>
    have hc : configured given (es ++ [.restart given' tie']) = given' := by rw [configured_append]; rfl
    have hs : BeaconNode.step env s (.restart given' tie') =
        some (fresh given' tie' { s.store with fin := none, opt := none }) := by
      simp only [BeaconNode.step, h.facts.reopen, Option.map_some]
    refine ⟨_, hs, lives_snoc h.lives hs, hfacts.reopened, nofun, nofun, ?_, ?_⟩
    · intro r hr
      rw [hc] at hr
      subst hr; rfl
    · intro hn
      rw [hc] at hn
      subst hn
      simp only [fresh, trustedRoot]
      cases hr : latestRoot { s.store with fin := none, opt := none } tie' with
      | none => exact Or.inl rfl
      | some root =>
        obtain ⟨r, hm, -, rfl⟩ := latestRoot_some hr
        obtain ⟨v, k, -, e2, -, e4⟩ := hfacts.boots r hm
        exact Or.inr ⟨k, v, e4, by rw [e2, ofBytes]⟩

theorem Inv.run {es s} (h : Inv env given tie es s) (more : List Ev) (hl : Late more) :
    ∃ s', BeaconNode.run env s more = some s' ∧ Inv env given tie (es ++ more) s' := by
  induction more generalizing es s with
  | nil => exact ⟨s, rfl, by rwa [List.append_nil]⟩
  | cons e more ih =>
    obtain ⟨t, h1, h2⟩ := h.step e (fun k b n hm => hl k b n (by
      simp only [List.mem_singleton] at hm; rw [hm]; simp))
    obtain ⟨s', h3, h4⟩ := ih h2 (fun k b n hm => hl k b n (List.mem_cons_of_mem _ hm))
    refine ⟨s', by simp only [BeaconNode.run, h1, h3], ?_⟩
    rwa [List.append_assoc, List.singleton_append] at h4

/-- An event that is not the operator's leaves the summaries or brings later ones. -/
theorem step_summaries {env : Env} {s s' : BeaconNode.State} {e : Ev} (hno : ∀ ask key bs w, e ≠ .operator ask key bs w)
    (h : step env s e = some s') : s'.store.summaries = s.store.summaries ∨
    ∃ n bs, s'.store.summaries = some (n, bs) ∧ n < 2 ^ 63 ∧ ∀ r, s.store.summaries = some r → r.1 < n := by
  cases e with
  | arrived key content now => simp only [step] at h; split at h <;> (cases h; exact .inl rfl)
  | operator ask key content w => exact absurd rfl (hno ask key content w)
  | prune now => cases h; exact .inl rfl
  | restart g t =>
    simp only [step, Option.map_eq_some_iff] at h
    obtain ⟨st, h1, rfl⟩ := h
    exact .inl (reopen_summaries h1)
  | heard now m =>
    rcases step_heard (env := env) (s := s) (now := now) (m := m) with h' | ⟨_, _, _, _, h'⟩ <;> (rw [h'] at h; cases h; exact .inl rfl)
  | started prior now b msgs =>
    rcases step_started (env := env) (s := s) (prior := prior) (now := now) (b := b) (msgs := msgs) with h' | ⟨_, _, _, _, _, h'⟩ <;>
      (rw [h'] at h; cases h; exact .inl rfl)
  | keep i w =>
    simp only [step] at h
    split at h
    · cases h; exact .inl rfl
    · next key content _ =>
      cases h
      rcases putIf_summaries env.H s.store key content w with h | ⟨e, h⟩
      · exact .inl h
      · exact .inr ⟨e, content, h⟩

theorem reach {es s} (hl : Late es) (h : Lives env given tie es s) : Inv env given tie es s := by
  obtain ⟨s', h1, h2⟩ := Inv.init (env := env) (given := given) (tie := tie) |>.run es hl
  unfold Lives at h
  rw [h] at h1
  cases h1
  exact h2
end

end Verif.BeaconNode

namespace Verif.BeaconNode
open Verif.BeaconValue Verif.BeaconValidator Verif.SszT Verif.Props
open Verif.LightClient (Env Client Msg headerRoot)
open BeaconFormat (Belongs)
open BeaconNodes

section
variable {env : Env} {given : Option Id} {tie : Nat} {ch : Chain}

theorem configured_mem {es : List Ev} {r : Id} (h : configured given es = some r) : r ∈ roots given es := by
  induction es generalizing given with
  | nil =>
    have : given = some r := h
    subst this; simp [roots]
  | cons e es ih =>
    cases e with
    | restart g t =>
      have := ih (given := g) h
      simp only [roots, List.mem_append, List.flatMap_cons] at this ⊢
      rcases this with h | h
      · exact Or.inr (Or.inl h)
      · exact Or.inr (Or.inr h)
    | _ =>
      have := ih (given := given) h
      simpa [roots] using this

theorem Assumed.less {es more : List Ev} (h : Assumed env given tie ch (es ++ more)) : Assumed env given tie ch es where
  messages m hm := h.messages m (by simp only [messages, List.flatMap_append, List.mem_append]; exact Or.inl hm)
  committees b hb := h.committees b (by simp only [starts, List.filterMap_append, List.mem_append]; exact Or.inl hb)
  roots b hb hr := h.roots b (by simp only [starts, List.filterMap_append, List.mem_append]; exact Or.inl hb) (by
    rcases List.mem_cons.mp hr with hr | hr
    · rw [hr]; simp
    · refine List.mem_cons_of_mem _ ?_
      simp only [BeaconNodes.roots, List.flatMap_append, List.mem_append] at hr ⊢
      rcases hr with hr | hr
      · exact Or.inl hr
      · exact Or.inr (Or.inl hr))
  binding b hb k v hs := h.binding b (by simp only [starts, List.filterMap_append, List.mem_append]; exact Or.inl hb) k v (Source.more _ hs)
  operator k v ho := h.operator k v (Operated.more _ ho)
  early s k v ha := h.early s k v (AcceptedIn.more _ ha)

theorem Late.less {es more : List Ev} (h : Late (es ++ more)) : Late es :=
  fun k b n hm => h k b n (List.mem_append_left _ hm)

theorem lives_last {es e s} (h : Lives env given tie (es ++ [e]) s) :
    ∃ t, Lives env given tie es t ∧ step env t e = some s := by
  unfold Lives at *
  rw [run_append] at h
  cases hr : run env (fresh given tie BeaconStore.init) es with
  | none => rw [hr] at h; cases h
  | some t =>
    refine ⟨t, rfl, ?_⟩
    rw [hr] at h
    simp only [Option.bind_some, run] at h
    split at h
    · next s' hs => cases h; exact hs
    · cases h

theorem processAll_follows {cfg c d} : ∀ {msgs}, Follows ch c → (∀ m ∈ msgs.map Prod.snd, Honest env cfg ch m.generic) →
    LightClient.processAll env cfg c msgs = (d, true) → Follows ch d
  | [], h, _, hp => by cases hp; exact h
  | (now, m) :: rest, h, hm, hp => by
    rw [LightClient.processAll] at hp
    split at hp
    · cases hp
    · next d' hd =>
      exact processAll_follows (C41_step env cfg ch now _ _ m h (hm m (by simp)) hd)
        (fun m' h' => hm m' (by simp only [List.map_cons, List.mem_cons]; exact Or.inr h')) hp

theorem follows_all (n : Nat) : ∀ es : List Ev, es.length = n → ∀ s, Late es → Lives env given tie es s →
    Assumed env given tie ch es → ∀ c, s.client = some c → Follows ch c := by
  induction n using Nat.strongRecOn with
  | ind n ih =>
    intro es hn s hl hs ha c hc
    rcases List.eq_nil_or_concat es with rfl | ⟨es', e, rfl⟩
    · unfold Lives at hs
      cases hs
      cases hc
    rw [List.concat_eq_append] at *
    obtain ⟨t, ht, hst⟩ := lives_last hs
    have hn' : es'.length < n := by rw [← hn]; simp
    have hl' := Late.less hl
    have ha' := Assumed.less ha
    have before : ∀ c, t.client = some c → Follows ch c := ih _ hn' es' rfl t hl' ht ha'
    cases e with
    | arrived key content now =>
      simp only [step] at hst
      split at hst <;> (cases hst; exact before c hc)
    | keep i w =>
      simp only [step] at hst
      split at hst <;> (cases hst; exact before c hc)
    | operator ask key content w => cases hst; exact before c hc
    | prune now => cases hst; exact before c hc
    | restart g t' =>
      simp only [step, Option.map_eq_some_iff] at hst
      obtain ⟨st, -, rfl⟩ := hst
      cases hc
    | heard now m =>
      rcases step_heard (env := env) (s := t) (now := now) (m := m) with h | ⟨c0, c1, h0, h1, h2⟩
      · rw [h] at hst; cases hst; exact before c hc
      · rw [h2] at hst
        cases hst
        cases hc
        exact C41_step env _ ch now c0 c m (before c0 h0)
          (ha.messages m (by simp [messages]) t.root) h1
    | started prior now b msgs =>
      rcases step_started (env := env) (s := t) (prior := prior) (now := now) (b := b) (msgs := msgs) with h | ⟨c0, c1, h0, h1, h2, h3⟩
      · rw [h] at hst; cases hst; exact before c hc
      · rw [h3] at hst
        cases hst
        cases hc
        have hb : b ∈ starts (es' ++ [Ev.started prior now b msgs]) := by simp [starts]
        rw [clientConfig_eq] at h1 h2
        obtain ⟨-, g2, g3, g4⟩ := LightNode.bootstrap_ok _ _ _ _ _ _ h1
        have hinv := reach hl' ht
        have hroot : headerRoot env.H b.header = t.root := g2
        have hcan : ch.canonical b.header := by
          cases hcfg : configured given es' with
          | some r =>
            apply ha.roots b hb
            rw [hroot, hinv.chosen r hcfg]
            refine List.mem_cons_of_mem _ ?_
            have := configured_mem hcfg
            simp only [BeaconNodes.roots, List.flatMap_append, List.mem_append] at this ⊢
            rcases this with h | h
            · exact Or.inl h
            · exact Or.inr (Or.inl h)
          | none =>
            rcases hinv.trust hcfg with hd | ⟨k, v, hsrc, hv⟩
            · apply ha.roots b hb
              rw [hroot, hd]; simp
            · have hh := ha.binding b hb k v (Source.more _ hsrc) (hroot.trans hv.symm)
              rw [hh]
              rcases hsrc with ⟨s', hacc⟩ | hop
              · cases hcl : s'.client with
                | none => exact ha'.early s' k v hacc hcl
                | some c' =>
                  obtain ⟨pre, now', post, he, hlive, -, hok⟩ := hacc
                  have hlp : Late pre := Late.less (he ▸ hl')
                  have hap : Assumed env given tie ch pre := Assumed.less (he ▸ ha')
                  have hf := ih pre.length (by
                    have := congrArg List.length he
                    simp only [List.length_append, List.length_cons] at this; omega) pre rfl s' hlp hlive hap c' hcl
                  have : v.2.header.beacon = c'.store.finalized := hok.2 _ (by simp [view, hcl])
                  rw [this]
                  exact hf.finalized
              · exact ha'.operator k v hop
        have hstart : Follows ch c0 := by
          rw [g4]
          exact ⟨hcan, ha.committees b hb hcan g3, nofun⟩
        refine processAll_follows hstart ?_ h2
        intro m hm
        refine ha.messages m ?_ t.root
        simp only [messages, List.flatMap_append, List.mem_append, List.flatMap_cons, List.flatMap_nil, List.append_nil]
        exact Or.inr hm

theorem follows {es s} (hl : Late es) (hs : Lives env given tie es s) (ha : Assumed env given tie ch es) {c} (hc : s.client = some c) :
    Follows ch c := follows_all es.length es rfl s hl hs ha c hc

theorem source_canonical {es} (hl : Late es) (ha : Assumed env given tie ch es) {k v}
    (h : Source env given tie es (.bootstrap k) (.bootstrap v)) : ch.canonical v.2.header.beacon := by
  rcases h with ⟨s', hacc⟩ | hop
  · cases hcl : s'.client with
    | none => exact ha.early s' k v hacc hcl
    | some c' =>
      obtain ⟨pre, now', post, rfl, hlive, -, hok⟩ := hacc
      have hf := follows (Late.less hl) hlive (Assumed.less ha) hcl
      have : v.2.header.beacon = c'.store.finalized := hok.2 _ (by simp [view, hcl])
      rw [this]
      exact hf.finalized
  · exact ha.operator k v hop

end

end Verif.BeaconNode
