import Verif.Model.Ping
import Verif.Lemmas.PingExt

namespace Verif.Ping
open Verif.Wire Verif.PingExt

variable {E : Type}

/-- Every entry of the table is filed under its own node id (kbucket.rs:105, 125, 147). -/
def Keyed (env : Env E) (t : Id → Option (Node E)) : Prop :=
  ∀ p n, t p = some n → env.nodeId n.enr = p

/-- Effect of one message on the sender's entry. -/
def stepNode (env : Env E) (m : PingBody) (n : Node E) : Node E :=
  match decodeExt env.utf8 m.payloadType m.payload with
  | none => n
  | some e => if e.type ∈ env.supported then (handleExt e n).getD n else n

theorem handleExt_enr {e : Ext} {n n' : Node E} (h : handleExt e n = some n') : n'.enr = n.enr := by
  cases e <;> simp only [handleExt, handleCapabilities, handleBasicRadius, handleHistoryRadius] at h <;>
    first
    | (split at h <;> first | (cases h; rfl) | cases h)
    | cases h

theorem stepNode_enr (env : Env E) (m : PingBody) (n : Node E) : (stepNode env m n).enr = n.enr := by
  unfold stepNode
  split
  · rfl
  · next e _ =>
    split
    · cases h : handleExt e n with
      | none => rfl
      | some n' => exact handleExt_enr h
    · rfl

theorem process_table (env : Env E) (s : State E) (src : Id) (m : PingBody) (hk : Keyed env s.table)
    (p : Id) : (process env s src m).table p =
      if p = src then (s.table p).map (stepNode env m) else s.table p := by
  unfold process
  cases hs : s.table src with
  | none =>
    simp only
    by_cases hp : p = src
    · subst hp; simp [hs]
    · simp [hp]
  | some n =>
    have hid := hk src n hs
    simp only [applyPayload]
    cases hd : decodeExt env.utf8 m.payloadType m.payload with
    | none =>
      have : stepNode env m = id := by funext n; simp [stepNode, hd]
      simp [this]
    | some e =>
      simp only
      split
      · next hsup =>
        have hst : ∀ n : Node E, stepNode env m n = (handleExt e n).getD n := by
          intro n; simp [stepNode, hd, hsup]
        cases hh : handleExt e n with
        | none =>
          simp only
          by_cases hp : p = src
          · subst hp; simp [hs, hst, hh]
          · simp [hp]
        | some n' =>
          simp only [updateNode, handleExt_enr hh, hid]
          by_cases hp : p = src
          · subst hp; simp [hs, hst, hh]
          · simp [hp]
      · next hsup =>
        have : stepNode env m = id := by funext n; simp [stepNode, hd, hsup]
        simp [this]

theorem keyed_process {env : Env E} {s : State E} (src : Id) (m : PingBody) (hk : Keyed env s.table) :
    Keyed env (process env s src m).table := by
  intro p n h
  rw [process_table env s src m hk] at h
  split at h
  · next hp =>
    simp only [Option.map_eq_some_iff] at h
    obtain ⟨n0, h0, rfl⟩ := h
    rw [stepNode_enr]; exact hk p n0 h0
  · exact hk p n h

theorem keyed_run {env : Env E} : ∀ (evs : List Event) (s : State E), Keyed env s.table →
    Keyed env (run env s evs).table
  | [], _, hk => hk
  | e :: evs, _, hk => keyed_run evs _ (keyed_process e.source e.body hk)

theorem run_append (env : Env E) (s : State E) (a b : List Event) :
    run env s (a ++ b) = run env (run env s a) b := List.foldl_append ..

/-- The effect of a history on one entry. -/
theorem run_table (env : Env E) (p : Id) : ∀ (evs : List Event) (s : State E), Keyed env s.table →
    (run env s evs).table p =
      (s.table p).map fun n => evs.foldl (fun n e => if p = e.source then stepNode env e.body n else n) n
  | [], s, _ => by simp [run]
  | e :: evs, s, hk => by
    show (run env (process env s e.source e.body) evs).table p = _
    rw [run_table env p evs _ (keyed_process _ _ hk), process_table _ _ _ _ hk]
    by_cases hp : p = e.source
    · simp [hp, Function.comp_def]
    · simp [hp]

end Verif.Ping
