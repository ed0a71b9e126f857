import Verif.Model.StoreVersion

/-! # C26: store versions -/

namespace Verif.Props
open Verif.StoreVersion

/-- Opening a store: a successful open leaves the recorded version equal to the store's version; a
refused version leaves the whole table untouched; other content types are never affected. -/
theorem C26_open (db : StoreInfo) (ct : ContentType) (v : Version) (ok : Bool) :
    (∀ w, (createStore db ct v ok).2 = .ok w → w = v ∧ (createStore db ct v ok).1 ct = some v) ∧
    (∀ old new, (createStore db ct v ok).2 = .error (.unsupportedMigration old new) →
      db ct = some old ∧ new = v ∧ old ≠ v ∧ (createStore db ct v ok).1 = db) ∧
    (∀ c, c ≠ ct → (createStore db ct v ok).1 c = db c) := by
  unfold createStore migrateFrom updateStoreInfo
  cases h : db ct with
  | none => cases ok <;> simp_all
  | some old =>
    by_cases hv : v = old
    · subst hv; cases ok <;> simp_all
    · simp [hv]; exact fun h' => hv h'.symm

/-- An open succeeds exactly when the table has no version for the content type or the same one (and
the store itself can be created). -/
theorem C26_open_ok_iff (db : StoreInfo) (ct : ContentType) (v : Version) (ok : Bool) :
    (createStore db ct v ok).2 = .ok v ↔ ok = true ∧ (db ct = none ∨ db ct = some v) := by
  unfold createStore migrateFrom
  cases h : db ct with
  | none => cases ok <;> simp
  | some old =>
    by_cases hv : v = old
    · subst hv; cases ok <;> simp
    · simp [hv]; exact fun _ h' => hv h'.symm

/-- A matching version is left alone. -/
theorem C26_matching_unchanged (db : StoreInfo) (ct : ContentType) (v : Version) (ok : Bool)
    (h : db ct = some v) : (createStore db ct v ok).1 = db := by
  unfold createStore; rw [h]; simp

/-- Over every history of opens, by any mix of program versions: once a version is recorded for a
content type it is never changed (there is no migration), so no later open can silently reinterpret
the stored data. -/
theorem C26_history (db : StoreInfo) (ct : ContentType) (v : Version) (h : db ct = some v)
    (ops : List (ContentType × Version × Bool)) : run db ops ct = some v := by
  induction ops generalizing db with
  | nil => exact h
  | cons op ops ih =>
    obtain ⟨c, w, ok⟩ := op
    apply ih
    by_cases hc : c = ct
    · subst hc
      by_cases hw : w = v
      · subst hw; rw [C26_matching_unchanged db c w ok h]; exact h
      · unfold createStore migrateFrom; rw [h]; simp [hw, h]
    · rw [(C26_open db c w ok).2.2 ct (fun e => hc e.symm)]; exact h

/-- A new database gets the version of the first store opened on it. -/
theorem C26_first_open (ct : ContentType) (v : Version) (ok : Bool) :
    (createStore (fun _ => none) ct v ok).1 ct = some v := by
  cases ok <;> simp [createStore, updateStoreInfo]

example : (createStore (run (fun _ => none) [(.state, .idIndexedV1, true)]) .state .ephemeralV1
    true).2 = .error (.unsupportedMigration .idIndexedV1 .ephemeralV1) := rfl

end Verif.Props
