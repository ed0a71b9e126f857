import Verif.Props.OfferSpec
import Verif.Lemmas.AcceptQueue
import Verif.Lemmas.AcceptCode
import Verif.Lemmas.Payload

namespace Verif.Offer
open Verif.AQ Verif.Props

theorem collect_some {α β : Type} {f : α → Option β} {as : List α} {bs : List β}
    (h : collect f as = some bs) :
    bs.length = as.length ∧ ∀ (i : Nat) (a : α), as[i]? = some a → ∃ b, bs[i]? = some b ∧ f a = some b := by
  induction as generalizing bs with
  | nil =>
    have := Option.some.inj h; subst this
    exact ⟨rfl, fun i a h => by simp at h⟩
  | cons a as ih =>
    unfold collect at h
    cases hf : f a with
    | none => simp [hf] at h
    | some b =>
      cases hc : collect f as with
      | none => simp [hf, hc] at h
      | some bs' =>
        simp only [hf, hc] at h
        have := Option.some.inj h; subst this
        obtain ⟨h1, h2⟩ := ih hc
        refine ⟨by simp [h1], fun i a' hi => ?_⟩
        cases i with
        | zero =>
          have : a = a' := by simpa using hi
          subst this; exact ⟨b, rfl, hf⟩
        | succ i => simpa using h2 i a' (by simpa using hi)

theorem collect_none {α β : Type} {f : α → Option β} {as : List α} :
    collect f as = none ↔ ∃ a ∈ as, f a = none := by
  induction as with
  | nil => simp [collect]
  | cons a as ih =>
    unfold collect
    cases hf : f a with
    | none => simp [hf]
    | some b =>
      cases hc : collect f as with
      | none => simp [hf, ih.1 hc]
      | some bs =>
        have : ¬ ∃ a ∈ as, f a = none := fun h => by rw [ih.2 h] at hc; cases hc
        simp only [List.mem_cons, exists_eq_or_imp, hf]
        simpa using this

theorem collect_isSome {α β : Type} {f : α → Option β} {as : List α} (h : ∀ a ∈ as, f a ≠ none) :
    ∃ bs, collect f as = some bs := by
  cases hc : collect f as with
  | some bs => exact ⟨bs, rfl⟩
  | none => obtain ⟨a, ha, hn⟩ := collect_none.1 hc; exact absurd hn (h a ha)

variable {K P : Type} [DecidableEq K] [DecidableEq P]

/-- The verdict on the key at an index, from the decision and the answer of the queue. -/
theorem verdictLoop_length (h : Host K P) (enr : P) (i : Nat) (q : List (Entry K P))
    (l : List (K × Decision)) : (verdictLoop h enr i q l).2.1.length = l.length := by
  induction l generalizing i q with
  | nil => rfl
  | cons x rest ih =>
    obtain ⟨k, d⟩ := x
    cases d <;> simp only [verdictLoop]
    · split <;> simp [ih]
    · simp [ih]
    · simp [ih]

theorem verdictLoop_keys (h : Host K P) (enr : P) (i : Nat) (q : List (Entry K P))
    (l : List (K × Decision)) :
    (verdictLoop h enr i q l).2.2 = selected (verdictLoop h enr i q l).2.1 (l.map (·.1)) := by
  induction l generalizing i q with
  | nil => rfl
  | cons x rest ih =>
    obtain ⟨k, d⟩ := x
    cases d <;> simp only [verdictLoop]
    · split <;> simp [selected, ih]
    · simp [selected, ih]
    · simp [selected, ih]

theorem verdictLoop_code (h : Host K P) (enr : P) (i : Nat) (q : List (Entry K P))
    (l : List (K × Decision)) (j : Nat) (k : K) (d : Decision) (hj : l[j]? = some (k, d)) :
    ∃ c, (verdictLoop h enr i q l).2.1[j]? = some c ∧
      (d = .notWithinRadius → c = .notWithinRadius) ∧ (d = .alreadyStored → c = .alreadyStored) ∧
      (d = .store → c = .accepted ∨ c = .inboundTransferInProgress) := by
  induction l generalizing i q j with
  | nil => simp at hj
  | cons x rest ih =>
    obtain ⟨k', d'⟩ := x
    cases j with
    | zero =>
      have hx : k' = k ∧ d' = d := by simpa using hj
      obtain ⟨rfl, rfl⟩ := hx
      cases d' <;> simp only [verdictLoop]
      · split
        · exact ⟨.accepted, rfl, by simp, by simp, by simp⟩
        · exact ⟨.inboundTransferInProgress, rfl, by simp, by simp, by simp⟩
      · exact ⟨.notWithinRadius, rfl, by simp, by simp, by simp⟩
      · exact ⟨.alreadyStored, rfl, by simp, by simp, by simp⟩
    | succ j =>
      have hj' : rest[j]? = some (k, d) := by simpa using hj
      cases d' <;> simp only [verdictLoop]
      · split <;> simpa using ih _ _ j hj'
      · simpa using ih _ _ j hj'
      · simpa using ih _ _ j hj'

/-- A key that is in the queue stays there or has expired. -/
theorem addKey_keeps (q : List (Entry K P)) (n pick : Nat) (k : K) (p : P) (k' : K) (x : Nat)
    (hx : x ≤ n + timeout) (hq : ∃ e ∈ q, e.key = k' ∧ x ≤ e.expiry)
    (hnd : (q.map (·.key)).Nodup) :
    (∃ e ∈ (addKey q n pick k p).1, e.key = k' ∧ x ≤ e.expiry) ∨ x ≤ n := by
  obtain ⟨e, he, hk, hxe⟩ := hq
  have h1 : e ∈ expireOne n pick q ∨ x ≤ n := by
    rcases expireOne_spec n pick q with ⟨h, -⟩ | ⟨e', he', hx', h⟩
    · rw [h]; exact .inl he
    · rw [h]
      by_cases hke : e.key = e'.key
      · right
        have := eq_of_key hnd he he' hke
        subst this
        omega
      · exact .inl (mem_removeKey.2 ⟨he, hke⟩)
  rcases h1 with h1 | h1
  · left
    unfold addKey
    simp only
    cases hl : lookup (expireOne n pick q) k with
    | none => exact ⟨e, List.mem_cons_of_mem _ h1, hk, hxe⟩
    | some e0 =>
      by_cases hkk : k' = k
      · exact ⟨_, List.mem_cons_self, hkk.symm, hx⟩
      · exact ⟨e, List.mem_cons_of_mem _ (mem_removeKey.2 ⟨h1, by rw [hk]; exact hkk⟩), hk, hxe⟩
  · exact .inr h1

theorem addKey_nodup (q : List (Entry K P)) (n pick : Nat) (k : K) (p : P)
    (hnd : (q.map (·.key)).Nodup) : ((addKey q n pick k p).1.map (·.key)).Nodup := by
  have h1 : ((expireOne n pick q).map (·.key)).Nodup := by
    rcases expireOne_spec n pick q with ⟨h, -⟩ | ⟨e', -, -, h⟩
    · rw [h]; exact hnd
    · rw [h]; exact nodup_filter _ hnd
  unfold addKey
  simp only
  cases hl : lookup (expireOne n pick q) k with
  | none =>
    simp only [List.map_cons, List.nodup_cons]
    refine ⟨fun hm => ?_, h1⟩
    obtain ⟨e, he, hk⟩ := List.mem_map.1 hm
    exact lookup_none hl e he hk
  | some e0 =>
    simp only [List.map_cons, List.nodup_cons]
    refine ⟨fun hm => ?_, nodup_filter _ h1⟩
    obtain ⟨e, he, hk⟩ := List.mem_map.1 hm
    exact (mem_removeKey.1 he).2 hk

/-- The offered key is in the queue afterwards, with a fresh expiry. -/
theorem addKey_has (q : List (Entry K P)) (n pick : Nat) (k : K) (p : P) :
    ∃ e ∈ (addKey q n pick k p).1, e.key = k ∧ n + timeout ≤ e.expiry := by
  unfold addKey
  simp only
  cases hl : lookup (expireOne n pick q) k with
  | none => exact ⟨_, List.mem_cons_self, rfl, Nat.le_refl _⟩
  | some e0 => exact ⟨_, List.mem_cons_self, rfl, Nat.le_refl _⟩

theorem addKey_keys (q : List (Entry K P)) (n pick : Nat) (k : K) (p : P) (e : Entry K P)
    (he : e ∈ (addKey q n pick k p).1) : e.key = k ∨ ∃ e' ∈ q, e'.key = e.key := by
  have h1 : ∀ e ∈ expireOne n pick q, e ∈ q := by
    rcases expireOne_spec n pick q with ⟨h, -⟩ | ⟨e', -, -, h⟩
    · rw [h]; exact fun e h => h
    · rw [h]; exact fun e h => (mem_removeKey.1 h).1
  unfold addKey at he
  simp only at he
  cases hl : lookup (expireOne n pick q) k with
  | none =>
    rw [hl] at he
    rcases List.mem_cons.1 he with rfl | he
    · exact .inl rfl
    · exact .inr ⟨e, h1 e he, rfl⟩
  | some e0 =>
    rw [hl] at he
    rcases List.mem_cons.1 he with rfl | he
    · exact .inl rfl
    · exact .inr ⟨e, h1 e (mem_removeKey.1 he).1, rfl⟩

theorem verdictLoop_busy (h : Host K P) (enr : P) (i : Nat) (q : List (Entry K P))
    (l : List (K × Decision)) (hmono : ∀ a b, a ≤ b → h.now a ≤ h.now b)
    (hnd : (q.map (·.key)).Nodup) (k : K) (x : Nat) (hx : x ≤ h.now i + timeout)
    (hq : ∃ e ∈ q, e.key = k ∧ x ≤ e.expiry) (j : Nat) (d : Decision)
    (hj : l[j]? = some (k, d)) (hc : (verdictLoop h enr i q l).2.1[j]? = some .accepted) :
    x ≤ h.now (i + j) := by
  induction l generalizing i q j with
  | nil => simp at hj
  | cons y rest ih =>
    obtain ⟨k', d'⟩ := y
    cases j with
    | zero =>
      have hx' : k' = k ∧ d' = d := by simpa using hj
      obtain ⟨rfl, rfl⟩ := hx'
      cases d' <;> simp only [verdictLoop] at hc
      · split at hc
        · rename_i hacc
          rw [addKey_snd] at hacc
          apply Classical.byContradiction
          intro hlt
          obtain ⟨e, he, hk, hxe⟩ := hq
          rcases expireOne_spec (h.now i) (h.pick i) q with ⟨hs, -⟩ | ⟨e', he', hx', hs⟩
          · rw [hs] at hacc; exact hacc e he hk
          · rw [hs] at hacc
            by_cases hke : e.key = e'.key
            · have := eq_of_key hnd he he' hke
              subst this
              rw [Nat.add_zero] at hlt
              omega
            · exact hacc e (mem_removeKey.2 ⟨he, hke⟩) hk
        · simp at hc
      · simp at hc
      · simp at hc
    | succ j =>
      have hj' : rest[j]? = some (k, d) := by simpa using hj
      have hij : i + (j + 1) = i + 1 + j := by omega
      rw [hij]
      have hx1 : x ≤ h.now (i + 1) + timeout := by
        have := hmono i (i + 1) (by omega); omega
      cases d' <;> simp only [verdictLoop] at hc
      · rcases addKey_keeps q (h.now i) (h.pick i) k' enr k x hx hq hnd with hq' | hle
        · split at hc
          · exact ih _ _ (addKey_nodup _ _ _ _ _ hnd) hx1 hq' j hj' (by simpa using hc)
          · exact ih _ _ (addKey_nodup _ _ _ _ _ hnd) hx1 hq' j hj' (by simpa using hc)
        · have := hmono i (i + 1 + j) (by omega); omega
      · exact ih _ _ hnd hx1 hq j hj' (by simpa using hc)
      · exact ih _ _ hnd hx1 hq j hj' (by simpa using hc)

/-- A key accepted earlier in the same offer is busy. -/
theorem verdictLoop_dup (h : Host K P) (enr : P) (i : Nat) (q : List (Entry K P))
    (l : List (K × Decision)) (hmono : ∀ a b, a ≤ b → h.now a ≤ h.now b)
    (hnd : (q.map (·.key)).Nodup) (k : K) (j j' : Nat) (hlt : j' < j) (d : Decision)
    (hj' : l[j']? = some (k, .store)) (hj : l[j]? = some (k, d))
    (hc : (verdictLoop h enr i q l).2.1[j]? = some .accepted) :
    h.now (i + j') + timeout ≤ h.now (i + j) := by
  induction l generalizing i q j j' with
  | nil => simp at hj
  | cons y rest ih =>
    obtain ⟨k', d'⟩ := y
    cases j with
    | zero => omega
    | succ j =>
      have hjr : rest[j]? = some (k, d) := by simpa using hj
      have hij : i + (j + 1) = i + 1 + j := by omega
      rw [hij]
      cases j' with
      | zero =>
        have hx' : k' = k ∧ d' = .store := by simpa using hj'
        obtain ⟨rfl, rfl⟩ := hx'
        simp only [verdictLoop] at hc
        have hx1 : h.now i + timeout ≤ h.now (i + 1) + timeout := by
          have := hmono i (i + 1) (by omega); omega
        have hhas := addKey_has q (h.now i) (h.pick i) k' enr
        have hnd' := addKey_nodup q (h.now i) (h.pick i) k' enr hnd
        split at hc
        · exact verdictLoop_busy h enr (i + 1) _ rest hmono hnd' k' _ hx1 hhas j d hjr
            (by simpa using hc)
        · exact verdictLoop_busy h enr (i + 1) _ rest hmono hnd' k' _ hx1 hhas j d hjr
            (by simpa using hc)
      | succ j' =>
        have hjr' : rest[j']? = some (k, .store) := by simpa using hj'
        have hij' : i + (j' + 1) = i + 1 + j' := by omega
        rw [hij']
        cases d' <;> simp only [verdictLoop] at hc
        · split at hc
          · exact ih _ _ (addKey_nodup _ _ _ _ _ hnd) j j' (by omega) hjr' hjr (by simpa using hc)
          · exact ih _ _ (addKey_nodup _ _ _ _ _ hnd) j j' (by omega) hjr' hjr (by simpa using hc)
        · exact ih _ _ hnd j j' (by omega) hjr' hjr (by simpa using hc)
        · exact ih _ _ hnd j j' (by omega) hjr' hjr (by simpa using hc)

theorem verdictLoop_free (h : Host K P) (enr : P) (i : Nat) (q : List (Entry K P))
    (l : List (K × Decision)) (k : K) (j : Nat)
    (hj : l[j]? = some (k, .store)) (hq : ∀ e ∈ q, e.key ≠ k)
    (hfirst : ∀ j' d, j' < j → l[j']? = some (k, d) → d ≠ .store) :
    (verdictLoop h enr i q l).2.1[j]? = some .accepted := by
  induction l generalizing i q j with
  | nil => simp at hj
  | cons y rest ih =>
    obtain ⟨k', d'⟩ := y
    cases j with
    | zero =>
      have hx' : k' = k ∧ d' = .store := by simpa using hj
      obtain ⟨rfl, rfl⟩ := hx'
      simp only [verdictLoop]
      have : (addKey q (h.now i) (h.pick i) k' enr).2 = true := by
        rw [addKey_snd]
        intro e he
        rcases expireOne_spec (h.now i) (h.pick i) q with ⟨hs, -⟩ | ⟨e', -, -, hs⟩
        · rw [hs] at he; exact hq e he
        · rw [hs] at he; exact hq e (mem_removeKey.1 he).1
      rw [if_pos this]
      rfl
    | succ j =>
      have hjr : rest[j]? = some (k, .store) := by simpa using hj
      have hf : ∀ j' d, j' < j → rest[j']? = some (k, d) → d ≠ .store :=
        fun j' d hlt hh => hfirst (j' + 1) d (by omega) (by simpa using hh)
      cases d' <;> simp only [verdictLoop]
      · have hkk : k' ≠ k := by
          rintro rfl
          exact hfirst 0 .store (by omega) (by simp) rfl
        have hq' : ∀ e ∈ (addKey q (h.now i) (h.pick i) k' enr).1, e.key ≠ k := by
          intro e he hk
          rcases addKey_keys _ _ _ _ _ e he with h1 | ⟨e', he', h2⟩
          · exact hkk (h1.symm.trans hk)
          · exact hq e' he' (h2.trans hk)
        split
        · simpa using ih _ _ j hjr hq' hf
        · simpa using ih _ _ j hjr hq' hf
      · simpa using ih _ _ j hjr hq hf
      · simpa using ih _ _ j hjr hq hf

/-! ## Selection -/

theorem selected_map {α β : Type} (f : α → β) (cs : List AcceptCode) (xs : List α) :
    selected cs (xs.map f) = (selected cs xs).map f := by
  induction cs generalizing xs with
  | nil => simp [selected]
  | cons c cs ih =>
    cases xs with
    | nil => simp [selected]
    | cons x xs => simp only [List.map_cons, selected, ih]; split <;> simp

theorem selected_zip {α β : Type} (cs : List AcceptCode) (xs : List α) (ys : List β)
    (h : xs.length = ys.length) :
    (selected cs xs).zip (selected cs ys) = selected cs (xs.zip ys) ∧
      (selected cs xs).length = (selected cs ys).length := by
  induction cs generalizing xs ys with
  | nil => simp [selected]
  | cons c cs ih =>
    cases xs with
    | nil => cases ys with
      | nil => simp [selected]
      | cons y ys => simp at h
    | cons x xs =>
      cases ys with
      | nil => simp at h
      | cons y ys =>
        have := ih xs ys (by simpa using h)
        simp only [selected, List.zip_cons_cons]
        split
        · simp [this.1, this.2]
        · exact this

theorem filter_selected {α β : Type} (f : α → β) (cs : List AcceptCode) (xs : List α) :
    ((cs.zip xs).filter (fun x => x.1 == .accepted)).map (fun x => f x.2) =
      selected cs (xs.map f) := by
  induction cs generalizing xs with
  | nil => simp [selected]
  | cons c cs ih =>
    cases xs with
    | nil => simp [selected]
    | cons x xs =>
      simp only [List.zip_cons_cons, List.map_cons, selected]
      rw [List.filter_cons]
      by_cases hc : c = .accepted
      · simp [hc, ih]
      · have : (c == AcceptCode.accepted) = false := by simpa using hc
        simp [hc, this, ih]

theorem selected_codes {α : Type} (f : AcceptCode → AcceptCode)
    (hf : ∀ c, f c = .accepted ↔ c = .accepted) (cs : List AcceptCode) (xs : List α) :
    selected (cs.map f) xs = selected cs xs := by
  induction cs generalizing xs with
  | nil => rfl
  | cons c cs ih =>
    cases xs with
    | nil => rfl
    | cons x xs =>
      simp only [List.map_cons, selected, ih]
      by_cases hc : c = .accepted
      · rw [if_pos hc, if_pos ((hf c).2 hc)]
      · rw [if_neg hc, if_neg (fun h => hc ((hf c).1 h))]

theorem selected_sublist {α : Type} (cs : List AcceptCode) (xs : List α) :
    (selected cs xs).Sublist xs := by
  induction cs generalizing xs with
  | nil => simp [selected]
  | cons c cs ih =>
    cases xs with
    | nil => simp [selected]
    | cons x xs =>
      simp only [selected]
      split
      · exact (ih xs).cons_cons x
      · exact (ih xs).cons x

theorem provideLoop_spec {get : K → Option (Option Bytes)} {cs : List AcceptCode} {ks : List K}
    {vs : List Bytes} (h : provideLoop get (cs.zip ks) = some vs) :
    (selected cs ks).map get = vs.map (fun v => some (some v)) := by
  induction cs generalizing ks vs with
  | nil =>
    have := Option.some.inj h; subst this; simp [selected]
  | cons c cs ih =>
    cases ks with
    | nil => have := Option.some.inj h; subst this; simp [selected]
    | cons k ks =>
      rw [List.zip_cons_cons] at h
      unfold provideLoop at h
      by_cases hc : c = .accepted
      · rw [if_pos hc] at h
        cases hg : get k with
        | none => simp [hg] at h
        | some o =>
          cases o with
          | none => simp [hg] at h
          | some v =>
            cases hp : provideLoop get (cs.zip ks) with
            | none => simp [hg, hp] at h
            | some vs' =>
              simp only [hg, hp] at h
              have := Option.some.inj h; subst this
              simp [selected, hc, hg, ih hp]
      · rw [if_neg hc] at h
        simp only [selected, hc, if_false]
        exact ih h

theorem swap16_swap16 (x : UInt16) : swap16 (swap16 x) = x := by
  unfold swap16
  have hx := x.toNat_lt
  have h1 : x.toNat % 256 * 256 + x.toNat / 256 < 2 ^ 16 := by omega
  rw [UInt16.toNat_ofNat_of_lt' h1]
  have h2 : (x.toNat % 256 * 256 + x.toNat / 256) % 256 * 256 +
      (x.toNat % 256 * 256 + x.toNat / 256) / 256 = x.toNat := by omega
  rw [h2, UInt16.ofNat_toNat]

theorem allDeclined_iff (codes : List AcceptCode) :
    allDeclined codes = true ↔ ∀ c ∈ codes, c ≠ .accepted := by
  unfold allDeclined
  rw [Bool.not_eq_true', ← Bool.not_eq_true, List.contains_iff_mem]
  exact ⟨fun h c hc e => h (e ▸ hc), fun h hm => h _ hm rfl⟩

theorem mem_zip_keys {ks : List K} {ds : List Decision} (h : ds.length = ks.length) :
    (ks.zip ds).map (·.1) = ks := by
  induction ks generalizing ds with
  | nil => simp
  | cons k ks ih =>
    cases ds with
    | nil => simp at h
    | cons d ds => simp [ih (by simpa using h)]

end Verif.Offer
