import Verif.Model.StateStore
import Verif.Lemmas.Store
import Verif.Props.Store

/-! # Lemmas about the state storage -/

namespace Verif.StateStore
open Verif.Store Verif.StateContent

def opsOf (K : Bytes → Id) : Op → List Store.Op
  | .put sps key bs =>
    match convert K key bs with
    | .ok v => [.insert sps key.toBytes v]
    | .error _ => []
  | .restart tries cfg sps => [.restart tries cfg sps]
  | .kill sps key bs turns tries cfg sps' =>
    match convert K key bs with
    | .ok v => [.kill sps key.toBytes v turns tries cfg sps']
    | .error _ => [.restart tries cfg sps']

theorem convert_error {K : Bytes → Id} {key : ContentKey.State} {bs : Bytes} {e : Err}
    (h : convert K key bs = .error e) : e = .decode ∨ e = .invalidData := by
  unfold convert at h
  split at h
  · cases h; exact Or.inl rfl
  · next v _ =>
    right
    cases key <;> simp only [convertAccount, convertStorage, convertBytecode] at h
    · split at h
      · split at h
        · cases h; rfl
        · split at h <;> cases h; rfl
      · cases h; rfl
    · split at h
      · split at h
        · cases h; rfl
        · split at h <;> cases h; rfl
      · cases h; rfl
    · split at h
      · split at h <;> cases h; rfl
      · cases h; rfl

theorem step_eq (env : Store.Env) (K : Bytes → Id) (st : Config × Store) (op : Op) :
    step env K st op = Store.run env st (opsOf K op) := by
  cases op with
  | put sps key bs =>
    simp only [step, opsOf, put]
    cases hc : convert K key bs with
    | error e =>
      simp only [Store.run]
      rcases convert_error hc with rfl | rfl <;> rfl
    | ok v =>
      simp only [Store.run, Store.step]
      cases hi : Store.insert env st.1 sps st.2 key.toBytes v with
      | error e => cases e <;> rfl
      | ok r => rfl
  | restart tries cfg sps =>
    simp only [step, opsOf, Store.run]
    cases Store.step env st (.restart tries cfg sps) <;> rfl
  | kill sps key bs turns tries cfg sps' =>
    simp only [step, opsOf]
    cases hc : convert K key bs with
    | error e =>
      simp only [Store.run]
      cases Store.step env st (.restart tries cfg sps') <;> rfl
    | ok v =>
      simp only [Store.run]
      cases Store.step env st (.kill sps key.toBytes v turns tries cfg sps') <;> rfl

theorem run_eq (env : Store.Env) (K : Bytes → Id) : ∀ (ops : List Op) (st st' : Config × Store),
    run env K st ops = .ok st' ↔ Store.run env st (ops.flatMap (opsOf K)) = .ok st'
  | [], st, st' => by simp [run, Store.run]
  | op :: ops, st, st' => by
    rw [List.flatMap_cons, Store.run_append, run, step_eq]
    cases h : Store.run env st (opsOf K op) with
    | error e => simp
    | ok st1 => simp only [Except.ok.injEq, exists_eq_left']; exact run_eq env K ops st1 st'

theorem writes_opsOf {K : Bytes → Id} {op : Op} {o : Store.Op} {k v : Bytes} (ho : o ∈ opsOf K op)
    (hw : Props.Writes o k v) :
    ∃ key bs, convert K key bs = .ok v ∧ key.toBytes = k ∧
      ((∃ sps, op = .put sps key bs) ∨
        ∃ sps turns tries cfg sps', op = .kill sps key bs turns tries cfg sps') := by
  cases op with
  | put sps key bs =>
    simp only [opsOf] at ho
    split at ho
    · next v' hc =>
      rw [List.mem_singleton] at ho
      subst ho
      rcases hw with ⟨_, h⟩ | ⟨_, _, _, _, _, h⟩
      · cases h; exact ⟨key, bs, hc, rfl, Or.inl ⟨sps, rfl⟩⟩
      · cases h
    · cases ho
  | restart tries cfg sps =>
    simp only [opsOf, List.mem_singleton] at ho
    subst ho
    rcases hw with ⟨_, h⟩ | ⟨_, _, _, _, _, h⟩ <;> cases h
  | kill sps key bs turns tries cfg sps' =>
    simp only [opsOf] at ho
    split at ho
    · next v' hc =>
      rw [List.mem_singleton] at ho
      subst ho
      rcases hw with ⟨_, h⟩ | ⟨_, _, _, _, _, h⟩
      · cases h
      · cases h; exact ⟨key, bs, hc, rfl, Or.inr ⟨_, _, _, _, _, rfl⟩⟩
    · rw [List.mem_singleton] at ho
      subst ho
      rcases hw with ⟨_, h⟩ | ⟨_, _, _, _, _, h⟩ <;> cases h

end Verif.StateStore
