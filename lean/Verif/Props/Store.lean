import Verif.Lemmas.Store
import Verif.Lemmas.ExceptEq

/-! # C20, C21, C22, C23, C24: the content store -/

namespace Verif.Props
open Verif.Store

/-! ## Specification -/

/-- States of a store that began on an empty database: every sequence of insertions, deletions, restarts with
other configurations and kills in the middle of an insertion. -/
def Reachable (env : Env) (st : Config × Store) : Prop :=
  ∃ cfg sps s ops, create env cfg sps [] = .ok s ∧ run env (cfg, s) ops = .ok st

/-- The store answers lookups of `id` with this key and value. -/
def Stored (s : Store) (id : Id) (key value : Bytes) : Prop :=
  hasContent s id = true ∧ lookupKey s id = some key ∧ lookupValue s id = some value

/-- The store answers lookups of `id` with nothing. -/
def Absent (s : Store) (id : Id) : Prop :=
  hasContent s id = false ∧ lookupKey s id = none ∧ lookupValue s id = none

/-- An operation that may write this key and value. -/
def Writes (op : Op) (key value : Bytes) : Prop :=
  (∃ sps, op = .insert sps key value) ∨
  (∃ sps turns tries cfg sps', op = .kill sps key value turns tries cfg sps')

/-- The bytes the rows take on disk, as the store estimates them. -/
def realUsage (cfg : Config) (rows : List Row) : Nat :=
  (rows.map fun r => 32 + r.key.length + r.value.length).sum + rows.length * cfg.extra

/-- The precision with which distances are indexed: the first 32 bits. -/
def prefix32 (d : Nat) : Nat := d / 2 ^ 224

/-! ## Lemmas about the specification -/

theorem stored_iff {s : Store} {id : Id} {k v : Bytes} : Stored s id k v ↔ lookup s.rows id = some (k, v) := by
  simp only [Stored, hasContent, lookupKey, lookupValue]
  cases h : lookup s.rows id with
  | none => simp
  | some kv => obtain ⟨a, b⟩ := kv; simp

theorem absent_iff {s : Store} {id : Id} : Absent s id ↔ lookup s.rows id = none := by
  simp only [Absent, hasContent, lookupKey, lookupValue]
  cases h : lookup s.rows id with
  | none => simp
  | some kv => simp

theorem reachable_inv {env : Env} (hq : Sql env) {st : Config × Store} (h : Reachable env st) : Inv env st := by
  obtain ⟨cfg, sps, s, ops, h1, h2⟩ := h
  exact run_inv env hq ops _ _ (create_inv env cfg hq sps [] cfg.node (RowsOk.nil _ _) s h1) h2

theorem realUsage_eq {env : Env} {n : Id} (cfg : Config) {rows : List Row} (h : RowsOk env n rows) :
    realUsage cfg rows = sizes rows + rows.length * cfg.extra := by
  unfold realUsage sizes
  congr 2
  apply List.map_congr_left
  intro r hr
  exact ((h.row r hr).2.2).symm

theorem realUsage_le {env : Env} {n : Id} (cfg : Config) {s : Store} {more : List Nat} (h : RowsOk env n s.rows)
    (ht : Tracked s more) : realUsage cfg s.rows ≤ s.usage cfg := by
  rw [realUsage_eq cfg h, Store.usage]
  obtain ⟨h1, h2⟩ := ht
  have := Nat.mul_le_mul_right cfg.extra (show s.rows.length ≤ s.count by omega)
  omega

/-! ## C20 -/

/-- The rows a lookup sees after a step. -/
theorem lookup_step (env : Env) (hq : Sql env) (st st' : Config × Store) (op : Op) (hi : Inv env st)
    (h : step env st op = .ok st') (id : Id) :
    lookup st'.2.rows id = lookup st.2.rows id ∨ lookup st'.2.rows id = none ∨
    (lookup st.2.rows id = none ∧ ∃ k v, Writes op k v ∧ env.idOf k = id ∧ lookup st'.2.rows id = some (k, v)) := by
  have hi' := step_inv env hq st st' op hi h
  obtain ⟨cfg, s⟩ := st
  -- rows that are part of the rows after the insertion of a key
  have key_case : ∀ k v (rows : List Row), rows.Pairwise (fun a b => a.id ≠ b.id) → Writes op k v →
      (∀ r ∈ rows, r ∈ insertRow s.rows (newRow env cfg k v)) →
      lookup rows id = lookup s.rows id ∨ lookup rows id = none ∨
      (lookup s.rows id = none ∧ ∃ k v, Writes op k v ∧ env.idOf k = id ∧ lookup rows id = some (k, v)) := by
    intro k v rows hu hw hsub
    have hiu := (hi.rows.insertRow k v).unique
    rcases lookup_subset hu hiu hsub id with h | h
    · rw [lookup_insertRow] at h
      cases hl : lookup s.rows id with
      | some kv => rw [hl] at h; exact Or.inl h
      | none =>
        rw [hl] at h
        simp only at h
        split at h
        · next hid => exact Or.inr (Or.inr ⟨rfl, k, v, hw, hid.symm, h⟩)
        · exact Or.inl h
    · exact Or.inr (Or.inl h)
  have sub_case : ∀ rows : List Row, rows.Pairwise (fun a b => a.id ≠ b.id) → (∀ r ∈ rows, r ∈ s.rows) →
      lookup rows id = lookup s.rows id ∨ lookup rows id = none ∨
      (lookup s.rows id = none ∧ ∃ k v, Writes op k v ∧ env.idOf k = id ∧ lookup rows id = some (k, v)) := by
    intro rows hu hsub
    rcases lookup_subset hu hi.rows.unique hsub id with h | h
    · exact Or.inl h
    · exact Or.inr (Or.inl h)
  obtain ⟨more, ht⟩ := hi.tracked
  cases op with
  | insert sps key value =>
    simp only [step] at h
    by_cases hd : s.radius < distance cfg (env.idOf key)
    · rw [insert_refused env cfg sps s key value hd] at h
      injection h with h
      subst h
      exact Or.inl rfl
    · obtain ⟨s', rem, rep, more', h1, h2, -⟩ := insert_spec env cfg hq sps s more key value ht (by omega)
      rw [h1] at h
      injection h with h
      subst h
      exact key_case key value _ hi'.rows.unique (Or.inl ⟨sps, rfl⟩) h2.sub
  | delete id' =>
    simp only [step] at h
    obtain ⟨s', h1, h2, -⟩ := delete_spec env cfg s more id' hi.rows ht
    rw [h1] at h
    injection h with h
    subst h
    refine sub_case _ hi'.rows.unique ?_
    show ∀ r ∈ s'.rows, _
    rw [h2]
    exact fun r hr => (List.mem_filter.mp hr).1
  | restart tries cfg' sps =>
    simp only [step] at h
    split at h
    · next s' hc =>
      injection h with h
      subst h
      obtain ⟨rem, hs⟩ := attempts_spec env hq tries s.rows
      obtain ⟨s'', h1, h2, h3⟩ := create_spec env cfg' hq sps _ _ (hi.rows.split hs)
      obtain ⟨s3, rem', g1, g2, -⟩ := openRows_spec env cfg' hq sps (attempts env tries s.rows)
      have : s' = s'' := by
        by_cases hcs : s''.rows = [] ∨ cfg.node.toNat / 2 ^ 224 = cfg'.node.toNat / 2 ^ 224
        · rw [(h2 hcs).1] at hc; injection hc with hc; exact hc.symm
        · rw [h3 hcs] at hc; cases hc
      subst this
      rw [g1] at h1
      injection h1 with h1
      subst h1
      exact sub_case _ hi'.rows.unique fun r hr => hs.sub r (g2.sub r hr)
    · cases h
  | kill sps key value turns tries cfg' sps' =>
    simp only [step] at h
    split at h
    · next s' hc =>
      injection h with h
      subst h
      obtain ⟨rem, hs⟩ := attempts_spec env hq tries (killed env cfg sps s key value turns)
      obtain ⟨s'', h1, h2, h3⟩ := create_spec env cfg' hq sps' _ _
        ((killed_ok env cfg hq sps s key value turns hi).split hs)
      obtain ⟨s3, rem', g1, g2, -⟩ := openRows_spec env cfg' hq sps'
        (attempts env tries (killed env cfg sps s key value turns))
      have : s' = s'' := by
        by_cases hcs : s''.rows = [] ∨ cfg.node.toNat / 2 ^ 224 = cfg'.node.toNat / 2 ^ 224
        · rw [(h2 hcs).1] at hc; injection hc with hc; exact hc.symm
        · rw [h3 hcs] at hc; cases hc
      subst this
      rw [g1] at h1
      injection h1 with h1
      subst h1
      have hsub : ∀ r ∈ s3.rows, r ∈ killed env cfg sps s key value turns := fun r hr => hs.sub r (g2.sub r hr)
      rcases killed_spec env cfg hq sps s key value turns hi with hk | ⟨rem, hk⟩
      · rw [hk] at hsub
        exact sub_case _ hi'.rows.unique hsub
      · exact key_case key value _ hi'.rows.unique (Or.inr ⟨sps, turns, tries, cfg', sps', rfl⟩)
          fun r hr => hk.sub r (hsub r hr)
    · cases h

/-- A value found was written by the first operation that inserted its id since the id was last absent, and
has been there ever since. -/
theorem C20_history (env : Env) (hq : Sql env) (cfg : Config) (sps : List Speed) (s0 : Store) (ops : List Op)
    (st : Config × Store) (hc : create env cfg sps [] = .ok s0) (hr : run env (cfg, s0) ops = .ok st)
    (id : Id) (k v : Bytes) (hl : Stored st.2 id k v) :
    ∃ pre op post st1, ops = pre ++ op :: post ∧ run env (cfg, s0) pre = .ok st1 ∧
      Writes op k v ∧ env.idOf k = id ∧ Absent st1.2 id ∧
      ∀ mid rest st2, post = mid ++ rest → run env st1 (op :: mid) = .ok st2 → Stored st2.2 id k v := by
  simp only [stored_iff, absent_iff] at hl ⊢
  have hi0 := create_inv env cfg hq sps [] cfg.node (RowsOk.nil _ _) s0 hc
  have hempty : lookup s0.rows id = none := by
    obtain ⟨s', h1, h2, -⟩ := create_spec env cfg hq sps [] cfg.node (RowsOk.nil _ _)
    obtain ⟨s3, rem, g1, g2, -⟩ := openRows_spec env cfg hq sps []
    rw [g1] at h1
    injection h1 with h1
    subst h1
    rw [(h2 (Or.inr rfl)).1] at hc
    injection hc with hc
    subst hc
    have := g2.perm.eq_nil
    rw [List.append_eq_nil_iff] at this
    rw [this.1]
    rfl
  -- by induction on the number of operations, removing the last one
  generalize hn : ops.length = n
  induction n generalizing ops st with
  | zero =>
    have : ops = [] := List.eq_nil_of_length_eq_zero hn
    subst this
    simp only [run] at hr
    injection hr with hr
    subst hr
    rw [hempty] at hl
    cases hl
  | succ n ih =>
    obtain ⟨ops', op, rfl⟩ : ∃ ops' op, ops = ops' ++ [op] :=
      ⟨ops.dropLast, ops.getLast (by intro h; simp [h] at hn),
        (List.dropLast_concat_getLast (by intro h; simp [h] at hn)).symm⟩
    obtain ⟨st1, h1, h2⟩ := (run_append env ops' [op] (cfg, s0) st).mp hr
    have hi1 := run_inv env hq ops' _ _ hi0 h1
    have hstep : step env st1 op = .ok st := by
      simp only [run] at h2
      split at h2
      · next st' hs => injection h2 with h2; rw [hs, h2]
      · cases h2
    rcases lookup_step env hq st1 st op hi1 hstep id with h | h | ⟨h, k', v', hw, hid, hk⟩
    · rw [h] at hl
      obtain ⟨pre, o, post, sa, ha, hb, hc1, hd, he, hf⟩ := ih ops' st1 h1 hl (by simp at hn; omega)
      refine ⟨pre, o, post ++ [op], sa, by rw [ha]; simp, hb, hc1, hd, he, ?_⟩
      intro mid rest st2 hm hrun
      by_cases hre : rest = []
      · subst hre
        rw [List.append_nil] at hm
        subst hm
        have hfull : run env (cfg, s0) (pre ++ (o :: (post ++ [op]))) = .ok st2 :=
          (run_append env _ _ _ _).mpr ⟨sa, hb, hrun⟩
        rw [ha, List.append_assoc, List.cons_append] at hr
        rw [hr] at hfull
        injection hfull with hfull
        subst hfull
        rw [h]; exact hl
      · have hlast : rest = rest.dropLast ++ [op] := by
          have h3 := List.dropLast_concat_getLast hre
          have h4 : (post ++ [op]).getLast (by simp) = rest.getLast hre := by
            have : (mid ++ rest).getLast (by simp [hre]) = rest.getLast hre := List.getLast_append_of_ne_nil _ hre
            rw [← this]
            congr 1
          rw [List.getLast_concat] at h4
          rw [← h4] at h3
          exact h3.symm
        apply hf mid rest.dropLast st2 _ hrun
        have h5 : (post ++ [op]).dropLast = (mid ++ rest).dropLast := by rw [hm]
        rw [List.dropLast_concat, List.dropLast_append_of_ne_nil hre] at h5
        exact h5
    · rw [h] at hl; cases hl
    · rw [hk] at hl
      injection hl with hl
      injection hl with e1 e2
      subst e1 e2
      refine ⟨ops', op, [], st1, rfl, h1, hw, hid, h, ?_⟩
      intro mid rest st2 hm hrun
      have : mid = [] := (List.append_eq_nil_iff.mp hm.symm).1
      subst this
      simp only [run, hstep] at hrun
      injection hrun with hrun
      subst hrun
      exact hk

/-- An insertion that does not exceed the capacity adds exactly the key if its id was not there. -/
theorem C20_insert (env : Env) (hq : Sql env) (cfg : Config) (s s' : Store) (hr : Reachable env (cfg, s))
    (sps : List Speed) (key value : Bytes) (dropped : List (Bytes × Bytes))
    (h : insert env cfg sps s key value = .ok (s', dropped)) :
    -- an id that is found was there before, or is the new one
    (∀ id k v, Stored s' id k v → Stored s id k v ∨
      Absent s id ∧ id = env.idOf key ∧ k = key ∧ v = value) ∧
    -- an id that was there, or is the new one, is found or was dropped
    (∀ id k v, Stored s id k v ∨ Absent s id ∧ id = env.idOf key ∧ k = key ∧ v = value →
      Stored s' id k v ∨ Absent s' id ∧ s.usage cfg + contentSize key value + cfg.extra > cfg.capacity ∧
        ((k, v) ∈ dropped ∨ s'.rows = [])) := by
  have hi := reachable_inv hq hr
  obtain ⟨more, ht⟩ := hi.tracked
  have hd : distance cfg (env.idOf key) ≤ s.radius := by
    apply Nat.le_of_not_lt
    intro hlt
    rw [insert_refused env cfg sps s key value hlt] at h
    cases h
  obtain ⟨s2, rem, rep, more', h1, h2, h3, h4, h5, h6⟩ := insert_spec env cfg hq sps s more key value ht hd
  rw [h1] at h
  injection h with h
  injection h with e1 e2
  subst e1 e2
  have hiu := (hi.rows.insertRow key value).unique
  have hu2 := ((hi.rows.insertRow key value).split h2).unique
  simp only [stored_iff, absent_iff]
  have hins : ∀ id k v, lookup (insertRow s.rows (newRow env cfg key value)) id = some (k, v) ↔
      (lookup s.rows id = some (k, v) ∨ lookup s.rows id = none ∧ id = env.idOf key ∧ k = key ∧ v = value) := by
    intro id k v
    rw [lookup_insertRow]
    cases hl : lookup s.rows id with
    | some kv => simp
    | none =>
      have hid : (newRow env cfg key value).id = env.idOf key := rfl
      have hkey : (newRow env cfg key value).key = key := rfl
      have hval : (newRow env cfg key value).value = value := rfl
      rw [hid, hkey, hval]
      simp only
      split
      · next he => simp [he, eq_comm]
      · next he => simp [he]
  constructor
  · intro id k v hl
    rw [← hins]
    rcases lookup_subset hu2 hiu h2.sub id with h | h
    · rw [← h]; exact hl
    · rw [h] at hl; cases hl
  · intro id k v hl
    rw [← hins] at hl
    rcases lookup_subset hu2 hiu h2.sub id with h | h
    · left; rw [h]; exact hl
    · right
      refine ⟨h, ?_, ?_⟩
      · rcases h6 with ⟨g1, g2, -⟩ | ⟨g1, -⟩
        · exfalso
          rw [g2] at h
          rw [show (inserted env cfg s key value).rows = insertRow s.rows (newRow env cfg key value) from rfl] at h
          rw [h] at hl
          cases hl
        · have := of_decide_eq_true g1
          have hcu : (inserted env cfg s key value).usage cfg = s.total + contentSize key value + (s.count + 1) * cfg.extra := rfl
          rw [hcu, Nat.add_mul] at this
          simp only [Store.usage]
          omega
      · obtain ⟨r, hr1, hr2, hr3⟩ := (lookup_eq_some hiu).mp hl
        rcases List.mem_append.mp (h2.perm.mem_iff.mpr hr1) with hk | hk
        · exfalso
          have := (lookup_eq_some hu2).mpr ⟨r, hk, hr2, hr3⟩
          rw [h] at this
          cases this
        · rcases h4 with ⟨-, g⟩ | ⟨-, g, -⟩
          · left
            rw [g, List.mem_map]
            exact ⟨r, hk, hr3⟩
          · exact Or.inr g

/-- A deletion removes the id and nothing else. -/
theorem C20_delete (env : Env) (hq : Sql env) (cfg : Config) (s : Store) (hr : Reachable env (cfg, s)) (id : Id) :
    ∃ s', delete s id = .ok s' ∧ Absent s' id ∧
      ∀ id', id' ≠ id → (∀ k v, Stored s' id' k v ↔ Stored s id' k v) ∧ (Absent s' id' ↔ Absent s id') := by
  have hi := reachable_inv hq hr
  obtain ⟨more, ht⟩ := hi.tracked
  obtain ⟨s', h1, h2, -⟩ := delete_spec env cfg s more id hi.rows ht
  simp only [stored_iff, absent_iff]
  refine ⟨s', h1, by rw [h2, lookup_filter, if_pos rfl], ?_⟩
  intro id' hne
  rw [h2, lookup_filter, if_neg hne]
  exact ⟨fun _ _ => Iff.rfl, Iff.rfl⟩

/-- A lookup finds something or nothing, and a value found is filed under the id of its key. -/
theorem C20_lookup (env : Env) (hq : Sql env) (cfg : Config) (s : Store) (hr : Reachable env (cfg, s)) (id : Id) :
    (Absent s id ∨ ∃ k v, Stored s id k v) ∧ ∀ k v, Stored s id k v → env.idOf k = id := by
  have hi := reachable_inv hq hr
  simp only [stored_iff, absent_iff]
  constructor
  · cases lookup s.rows id with
    | none => exact Or.inl rfl
    | some kv => exact Or.inr ⟨kv.1, kv.2, rfl⟩
  · intro k v hl
    obtain ⟨r, hr, h1, h2⟩ := (lookup_eq_some hi.rows.unique).mp hl
    injection h2 with e1 e2
    rw [← e1, ← (hi.rows.row r hr).1, h1]

theorem blobLe_refl : ∀ a : Bytes, blobLe a a = true
  | [] => rfl
  | a :: x => by
    rw [blobLe, if_neg (UInt8.lt_irrefl a), if_neg (UInt8.lt_irrefl a)]
    exact blobLe_refl x

theorem blobLe_total : ∀ a b : Bytes, blobLe a b = true ∨ blobLe b a = true
  | [], _ => Or.inl rfl
  | _ :: _, [] => Or.inr rfl
  | a :: x, b :: y => by
    rw [blobLe, blobLe]
    by_cases h : a < b
    · rw [if_pos h]; exact Or.inl rfl
    · rw [if_neg h]
      by_cases h2 : b < a
      · rw [if_pos h2, if_pos h2]; exact Or.inr rfl
      · rw [if_neg h2, if_neg h2, if_neg h]
        exact blobLe_total x y

theorem blobLe_trans : ∀ a b c : Bytes, blobLe a b = true → blobLe b c = true → blobLe a c = true
  | [], _, _, _, _ => rfl
  | _ :: _, [], _, h, _ => by cases h
  | _ :: _, _ :: _, [], _, h => by cases h
  | a :: x, b :: y, c :: z, h1, h2 => by
    rw [blobLe] at h1 h2 ⊢
    simp only [UInt8.lt_iff_toNat_lt] at *
    by_cases hab : a.toNat < b.toNat
    · by_cases hbc : b.toNat < c.toNat
      · rw [if_pos (by omega)]
      · rw [if_neg hbc] at h2
        by_cases hcb : c.toNat < b.toNat
        · rw [if_pos hcb] at h2; cases h2
        · rw [if_pos (by omega)]
    · rw [if_neg hab] at h1
      by_cases hba : b.toNat < a.toNat
      · rw [if_pos hba] at h1; cases h1
      · rw [if_neg hba] at h1
        by_cases hbc : b.toNat < c.toNat
        · rw [if_pos (by omega)]
        · rw [if_neg hbc] at h2
          by_cases hcb : c.toNat < b.toNat
          · rw [if_pos hcb] at h2; cases h2
          · rw [if_neg hcb] at h2
            rw [if_neg (by omega), if_neg (by omega)]
            exact blobLe_trans x y z h1 h2

theorem blobLe_antisymm : ∀ a b : Bytes, blobLe a b = true → blobLe b a = true → a = b
  | [], [], _, _ => rfl
  | [], _ :: _, _, h => by cases h
  | _ :: _, [], h, _ => by cases h
  | a :: x, b :: y, h1, h2 => by
    rw [blobLe] at h1 h2
    by_cases hab : a < b
    · rw [if_neg (by rw [UInt8.lt_iff_toNat_lt] at *; omega), if_pos hab] at h2; cases h2
    · rw [if_neg hab] at h1
      by_cases hba : b < a
      · rw [if_pos hba] at h1; cases h1
      · rw [if_neg hba] at h1
        rw [if_neg hba, if_neg hab] at h2
        have : a = b := by
          apply UInt8.toNat_inj.mp
          rw [UInt8.lt_iff_toNat_lt] at hab hba
          omega
        rw [this, blobLe_antisymm x y h1 h2]

/-- Pagination goes through one list that has each stored key once, in order. -/
theorem C20_paginate (env : Env) (hq : Sql env) (cfg : Config) (s : Store) (hr : Reachable env (cfg, s)) :
    ∃ all : List Bytes, all.Nodup ∧ all.Pairwise (fun a b => blobLe a b = true) ∧
      (∀ k, k ∈ all ↔ ∃ v, Stored s (env.idOf k) k v) ∧
      (∀ offset limit, (paginate s offset limit).1 = (all.drop offset).take limit) ∧
      (∀ limit n, all.length ≤ n * limit →
        (List.range n).flatMap (fun i => (paginate s (i * limit) limit).1) = all) := by
  have hi := reachable_inv hq hr
  refine ⟨sortBy blobLe (s.rows.map Row.key), ?_, ?_, ?_, fun _ _ => rfl, ?_⟩
  · apply (sortBy_perm _).nodup_iff.mpr
    rw [List.Nodup, List.pairwise_map]
    refine List.Pairwise.imp_of_mem ?_ hi.rows.unique
    intro a b ha hb hne e
    apply hne
    rw [(hi.rows.row a ha).1, (hi.rows.row b hb).1, e]
  · exact sortBy_sorted blobLe_total blobLe_trans _
  · intro k
    rw [mem_sortBy, List.mem_map]
    simp only [stored_iff, lookup_eq_some hi.rows.unique]
    constructor
    · rintro ⟨r, hr, rfl⟩
      exact ⟨r.value, r, hr, (hi.rows.row r hr).1, rfl⟩
    · rintro ⟨v, r, hr, -, h⟩
      injection h with h1 h2
      exact ⟨r, hr, h1⟩
  · intro limit n hn
    simp only [paginate]
    generalize sortBy blobLe (s.rows.map Row.key) = all at *
    have : ∀ m, (List.range m).flatMap (fun i => ((all.drop (i * limit)).take limit)) = all.take (m * limit) := by
      intro m
      induction m with
      | zero => simp
      | succ m ih =>
        rw [List.range_succ, List.flatMap_append, ih, Nat.succ_mul, List.take_add]
        simp
    have h2 := this n
    rw [List.take_of_length_le hn] at h2
    exact h2

/-! ## C21 -/

/-- The store stays within its capacity: so do the statistics it keeps and the rows it has. -/
theorem C21_capacity (env : Env) (hq : Sql env) (ha : env.arith.Sound) (cfg : Config) (s : Store)
    (hr : Reachable env (cfg, s)) : realUsage cfg s.rows ≤ s.usage cfg ∧ s.usage cfg ≤ cfg.capacity := by
  have hi := reachable_inv hq hr
  obtain ⟨more, ht⟩ := hi.tracked
  refine ⟨realUsage_le cfg hi.rows ht, ?_⟩
  exact Nat.le_of_not_lt (of_decide_eq_false (hi.capacity ha))

/-- Whatever the arithmetic, after an insertion the statistics are within the capacity or the pruning count was
computed as zero. -/
theorem C21_insert (env : Env) (hq : Sql env) (cfg : Config) (s s' : Store) (hr : Reachable env (cfg, s))
    (sps : List Speed) (key value : Bytes) (dropped : List (Bytes × Bytes))
    (h : insert env cfg sps s key value = .ok (s', dropped)) :
    realUsage cfg s'.rows ≤ s'.usage cfg ∧ (s'.usage cfg ≤ cfg.capacity ∨ pruningCount env cfg s' = 0) := by
  have hi := reachable_inv hq hr
  obtain ⟨more, ht⟩ := hi.tracked
  have hd : distance cfg (env.idOf key) ≤ s.radius := by
    apply Nat.le_of_not_lt
    intro hlt
    rw [insert_refused env cfg sps s key value hlt] at h
    cases h
  obtain ⟨s2, rem, rep, more', h1, h2, h3, h4, h5, h6⟩ := insert_spec env cfg hq sps s more key value ht hd
  rw [h1] at h
  injection h with h
  injection h with e1 e2
  subst e1 e2
  refine ⟨realUsage_le cfg ((hi.rows.insertRow key value).split h2) h3, ?_⟩
  rcases h6 with ⟨g1, g2, -⟩ | ⟨-, ⟨g, -⟩ | ⟨-, g, -⟩⟩
  · left
    rw [g2]
    have := of_decide_eq_false g1
    omega
  · left
    have := of_decide_eq_false g
    omega
  · exact Or.inr g

/-- An insertion fails exactly when the content is outside the radius. -/
theorem C21_refused (env : Env) (hq : Sql env) (cfg : Config) (s : Store) (hr : Reachable env (cfg, s))
    (sps : List Speed) (key value : Bytes) :
    (s.radius < xorDistance cfg.node (env.idOf key) →
      insert env cfg sps s key value = .error .insufficientRadius ∧
      step env (cfg, s) (.insert sps key value) = .ok (cfg, s)) ∧
    (xorDistance cfg.node (env.idOf key) ≤ s.radius →
      ∃ s' dropped, insert env cfg sps s key value = .ok (s', dropped)) := by
  have hi := reachable_inv hq hr
  obtain ⟨more, ht⟩ := hi.tracked
  constructor
  · intro h
    have := insert_refused env cfg sps s key value h
    exact ⟨this, by simp only [step, this]⟩
  · intro h
    obtain ⟨s2, rem, rep, more', h1, -⟩ := insert_spec env cfg hq sps s more key value ht h
    exact ⟨s2, _, h1⟩

/-- Nothing the store does fails or goes on for ever; only opening it for another node fails. -/
theorem C21_total (env : Env) (hq : Sql env) (st : Config × Store) (hr : Reachable env st) (op : Op) (e : Err)
    (h : step env st op = .error e) : e = .wrongNode := by
  have hi := reachable_inv hq hr
  obtain ⟨cfg, s⟩ := st
  obtain ⟨more, ht⟩ := hi.tracked
  have hcreate : ∀ cfg' sps rows, RowsOk env cfg.node rows → create env cfg' sps rows = .error e → e = .wrongNode := by
    intro cfg' sps rows hro hc
    obtain ⟨s', h1, h2, h3⟩ := create_spec env cfg' hq sps rows _ hro
    by_cases hcs : s'.rows = [] ∨ cfg.node.toNat / 2 ^ 224 = cfg'.node.toNat / 2 ^ 224
    · rw [(h2 hcs).1] at hc; cases hc
    · rw [h3 hcs] at hc; injection hc with hc; exact hc.symm
  cases op with
  | insert sps key value =>
    simp only [step] at h
    by_cases hd : s.radius < distance cfg (env.idOf key)
    · rw [insert_refused env cfg sps s key value hd] at h
      cases h
    · obtain ⟨s', rem, rep, more', h1, -⟩ := insert_spec env cfg hq sps s more key value ht (by omega)
      rw [h1] at h
      cases h
  | delete id =>
    simp only [step] at h
    obtain ⟨s', h1, -⟩ := delete_spec env cfg s more id hi.rows ht
    rw [h1] at h
    cases h
  | restart tries cfg' sps =>
    simp only [step] at h
    split at h
    · cases h
    · next e' hc =>
      injection h with h
      subst h
      obtain ⟨rem, hs⟩ := attempts_spec env hq tries s.rows
      exact hcreate _ _ _ (hi.rows.split hs) hc
  | kill sps key value turns tries cfg' sps' =>
    simp only [step] at h
    split at h
    · cases h
    · next e' hc =>
      injection h with h
      subst h
      obtain ⟨rem, hs⟩ := attempts_spec env hq tries (killed env cfg sps s key value turns)
      exact hcreate _ _ _ ((killed_ok env cfg hq sps s key value turns hi).split hs) hc

/-! ## C22 -/

/-- An insertion that exceeds the capacity removes entries, none of them nearer (in the indexed precision) than
an entry kept. What it reports was removed, and everything removed is reported unless the statistics had
counted an entry twice.
Missing: an entry inserted twice is removed without a report, and full distances are not compared, see `C22_unreported_violated` and
`C22_full_distance_violated`. -/
theorem C22_farthest_partial (env : Env) (hq : Sql env) (cfg : Config) (s s' : Store) (hr : Reachable env (cfg, s))
    (sps : List Speed) (key value : Bytes) (dropped : List (Bytes × Bytes))
    (h : insert env cfg sps s key value = .ok (s', dropped)) :
    ∃ removed : List Row,
      ((s'.rows ++ removed).map fun r => (r.key, r.value)).Perm
        (if hasContent s (env.idOf key) then s.rows.map fun r => (r.key, r.value)
          else (s.rows.map fun r => (r.key, r.value)) ++ [(key, value)]) ∧
      (∀ r ∈ removed, ∀ k ∈ s'.rows, prefix32 (xorDistance cfg.node (env.idOf k.key)) ≤
        prefix32 (xorDistance cfg.node (env.idOf r.key))) ∧
      (∀ d ∈ dropped, d ∈ removed.map fun r => (r.key, r.value)) ∧
      (s.count = s.rows.length → hasContent s (env.idOf key) = false →
        dropped = removed.map fun r => (r.key, r.value)) ∧
      (s.usage cfg + contentSize key value + cfg.extra ≤ cfg.capacity → removed = [] ∧ s'.radius = s.radius) := by
  have hi := reachable_inv hq hr
  obtain ⟨more, ht⟩ := hi.tracked
  have hd : distance cfg (env.idOf key) ≤ s.radius := by
    apply Nat.le_of_not_lt
    intro hlt
    rw [insert_refused env cfg sps s key value hlt] at h
    cases h
  obtain ⟨s2, rem, rep, more', h1, h2, h3, h4, h5, h6⟩ := insert_spec env cfg hq sps s more key value ht hd
  rw [h1] at h
  injection h with h
  injection h with e1 e2
  subst e1 e2
  have hok := hi.rows.insertRow key value
  have hrow : ∀ r ∈ s2.rows ++ rem, r.id = env.idOf r.key ∧ r.dist = prefix32 (xorDistance cfg.node (env.idOf r.key)) := by
    intro r hr
    obtain ⟨a, b, -⟩ := hok.row r (h2.perm.mem_iff.mp hr)
    refine ⟨a, ?_⟩
    rw [b, a, distBigEndianU32_eq (xorDistance_lt _ _), prefix32]
  have hany : (s.rows.any fun x => x.id == env.idOf key) = hasContent s (env.idOf key) := by
    unfold hasContent
    cases hl : lookup s.rows (env.idOf key) with
    | none =>
      rw [lookup_none] at hl
      simp only [Option.isSome_none, List.any_eq_false, beq_iff_eq]
      exact hl
    | some kv =>
      simp only [Option.isSome_some, List.any_eq_true, beq_iff_eq]
      simp only [lookup, Option.map_eq_some_iff] at hl
      obtain ⟨r, hr, -⟩ := hl
      exact ⟨r, List.mem_of_find?_eq_some hr, by simpa using List.find?_some hr⟩
  refine ⟨rem, ?_, ?_, ?_, ?_, ?_⟩
  · refine (h2.perm.map _).trans ?_
    unfold insertRow
    rw [show (newRow env cfg key value).id = env.idOf key from rfl, hany]
    split
    · exact List.Perm.refl _
    · rw [List.map_append]
      exact List.Perm.refl _
  · intro r hr k hk
    rw [← (hrow r (List.mem_append_right _ hr)).2, ← (hrow k (List.mem_append_left _ hk)).2]
    exact h2.farther r hr k hk
  · intro d hd
    obtain ⟨r, hr, rfl⟩ := List.mem_map.mp hd
    rcases h4 with ⟨-, g⟩ | ⟨-, -, -, g⟩
    · rw [g] at hr; exact List.mem_map_of_mem hr
    · exact List.mem_map_of_mem (g r hr)
  · intro hc hh
    have hm : more = [] := List.eq_nil_of_length_eq_zero (by have h7 : s.count = s.rows.length + more.length := ht.1; omega)
    rcases h4 with ⟨-, g⟩ | ⟨-, -, g, -⟩
    · rw [g]
    · rw [hh, if_neg (by simp), hm] at g
      exact absurd rfl g
  · intro hle
    have hcu : (inserted env cfg s key value).usage cfg = s.total + contentSize key value + (s.count + 1) * cfg.extra := rfl
    rcases h6 with ⟨g1, g2, g3⟩ | ⟨g1, -⟩
    · refine ⟨?_, by rw [g2]; rfl⟩
      have := h2.perm.length_eq
      rw [g2, List.length_append] at this
      exact List.eq_nil_of_length_eq_zero (by
        have e : (inserted env cfg s key value).rows = insertRow s.rows (newRow env cfg key value) := rfl
        rw [e] at this
        omega)
    · have := of_decide_eq_true g1
      rw [hcu, Nat.add_mul] at this
      simp only [Store.usage] at hle
      omega

/-- After an insertion that exceeds the capacity the radius is the distance of an entry that is farthest in
the indexed precision, capped by the maximum; no entry kept is outside it and no entry removed inside it, in
that precision. -/
theorem C22_radius (env : Env) (hq : Sql env) (ha : env.arith.Sound) (cfg : Config) (s s' : Store)
    (hr : Reachable env (cfg, s)) (sps : List Speed) (key value : Bytes) (dropped : List (Bytes × Bytes))
    (h : insert env cfg sps s key value = .ok (s', dropped))
    (hover : cfg.capacity < s.usage cfg + contentSize key value + cfg.extra) :
    (s'.rows = [] ∧ s'.radius = if cfg.capacity = 0 then 0 else cfg.maxRadius) ∨
    (∃ far ∈ s'.rows, s'.radius = min (xorDistance cfg.node (env.idOf far.key)) cfg.maxRadius ∧
      (∀ r ∈ s'.rows, prefix32 (xorDistance cfg.node (env.idOf r.key)) ≤
        prefix32 (xorDistance cfg.node (env.idOf far.key))) ∧
      (∀ r ∈ s'.rows, s'.radius = cfg.maxRadius ∨
        prefix32 (xorDistance cfg.node (env.idOf r.key)) ≤ prefix32 s'.radius) ∧
      (∀ d ∈ dropped, prefix32 s'.radius ≤ prefix32 (xorDistance cfg.node (env.idOf d.1)))) := by
  have hi := reachable_inv hq hr
  obtain ⟨removed, p1, p2, p3, -⟩ := C22_farthest_partial env hq cfg s s' hr sps key value dropped h
  obtain ⟨more, ht⟩ := hi.tracked
  have hd : distance cfg (env.idOf key) ≤ s.radius := by
    apply Nat.le_of_not_lt
    intro hlt
    rw [insert_refused env cfg sps s key value hlt] at h
    cases h
  obtain ⟨s2, rem, rep, more', h1, h2, h3, h4, h5, h6⟩ := insert_spec env cfg hq sps s more key value ht hd
  rw [h1] at h
  injection h with h
  injection h with e1 e2
  subst e1 e2
  have hok := (hi.rows.insertRow key value).split h2
  have hrad : RadiusIs cfg s2.rows s2.radius := by
    rcases h6 with ⟨g1, -⟩ | ⟨-, ⟨-, g⟩ | ⟨g1, g2, -⟩⟩
    · have := of_decide_eq_false g1
      have hcu : (inserted env cfg s key value).usage cfg = s.total + contentSize key value + (s.count + 1) * cfg.extra := rfl
      rw [hcu, Nat.add_mul] at this
      simp only [Store.usage] at hover
      omega
    · exact g
    · have := pruningCount_pos env cfg ha s2 more' h3 (h5 hi.maxPrune) g1
      omega
  by_cases he : s2.rows = []
  · exact Or.inl ⟨he, hrad.empty he⟩
  · right
    obtain ⟨far, hf, hmax, hr2⟩ := hrad.farthest he
    have hpre : ∀ r ∈ s2.rows, r.dist = prefix32 (xorDistance cfg.node (env.idOf r.key)) := by
      intro r hr
      obtain ⟨a, b, -⟩ := hok.row r hr
      rw [b, a, distBigEndianU32_eq (xorDistance_lt _ _), prefix32]
    have hfid : far.id = env.idOf far.key := (hok.row far hf).1
    rw [distance, hfid] at hr2
    have hle : ∀ r ∈ s2.rows, prefix32 (xorDistance cfg.node (env.idOf r.key)) ≤
        prefix32 (xorDistance cfg.node (env.idOf far.key)) := by
      intro r hr
      rw [← hpre r hr, ← hpre far hf]
      exact hmax r hr
    refine ⟨far, hf, hr2, hle, ?_, ?_⟩
    · intro r hr
      rw [hr2]
      by_cases hc : xorDistance cfg.node (env.idOf far.key) ≤ cfg.maxRadius
      · right; rw [Nat.min_eq_left hc]; exact hle r hr
      · left; exact Nat.min_eq_right (by omega)
    · intro d hd
      obtain ⟨r, hr, rfl⟩ := List.mem_map.mp (p3 d hd)
      refine Nat.le_trans ?_ (p2 r hr far hf)
      rw [hr2]
      exact Nat.div_le_div_right (Nat.min_le_left _ _)

/-! ## C23 -/

/-- The rows in the database when a store for `node` has ended: orderly, or killed at some point of an
insertion, possibly followed by attempts to open it that were given up or refused. -/
def LeftBehind (env : Env) (node : Id) (rows : List Row) : Prop :=
  ∃ cfg s tries, Reachable env (cfg, s) ∧ cfg.node = node ∧
    (rows = attempts env tries s.rows ∨
      ∃ sps k v turns, rows = attempts env tries (killed env cfg sps s k v turns))

theorem leftBehind_ok {env : Env} (hq : Sql env) {node : Id} {rows : List Row} (h : LeftBehind env node rows) :
    RowsOk env node rows := by
  obtain ⟨cfg, s, tries, hr, rfl, rfl | ⟨sps, k, v, turns, rfl⟩⟩ := h
  · obtain ⟨rem, hs⟩ := attempts_spec env hq tries s.rows
    exact (reachable_inv hq hr).rows.split hs
  · obtain ⟨rem, hs⟩ := attempts_spec env hq tries (killed env cfg sps s k v turns)
    exact (killed_ok env cfg hq sps s k v turns (reachable_inv hq hr)).split hs

/-- Opening a store computes the statistics from the rows, keeps all rows that fit and sets a radius that
covers them. -/
theorem C23_open (env : Env) (hq : Sql env) (node : Id) (rows : List Row) (hl : LeftBehind env node rows)
    (cfg : Config) (sps : List Speed) (s : Store) (h : create env cfg sps rows = .ok s) :
    s.count = s.rows.length ∧
    s.total = (s.rows.map fun r => 32 + r.key.length + r.value.length).sum ∧
    (∃ removed, (s.rows ++ removed).Perm rows ∧ ∀ r ∈ removed, ∀ k ∈ s.rows,
      prefix32 (xorDistance node (env.idOf k.key)) ≤ prefix32 (xorDistance node (env.idOf r.key))) ∧
    (realUsage cfg rows ≤ cfg.capacity → s.rows = rows) ∧
    (env.arith.Sound → realUsage cfg s.rows ≤ cfg.capacity) ∧
    s.radius ≤ cfg.maxRadius ∧
    (∀ r ∈ s.rows, s.radius = cfg.maxRadius ∨
      prefix32 (xorDistance cfg.node (env.idOf r.key)) ≤ prefix32 s.radius) := by
  have hok := leftBehind_ok hq hl
  have hinv := create_inv env cfg hq sps rows node hok s h
  obtain ⟨s', h1, h2, h3⟩ := create_spec env cfg hq sps rows node hok
  obtain ⟨s'', rem, g1, g2, g3, g4, g5, g6, g7⟩ := openRows_spec env cfg hq sps rows
  rw [g1] at h1
  injection h1 with h1
  subst h1
  have hs : s'' = s := by
    by_cases hc : s''.rows = [] ∨ node.toNat / 2 ^ 224 = cfg.node.toNat / 2 ^ 224
    · rw [(h2 hc).1] at h; injection h
    · rw [h3 hc] at h; cases h
  subst hs
  have hsz : sizes s''.rows = (s''.rows.map fun r => 32 + r.key.length + r.value.length).sum := by
    unfold sizes
    congr 1
    exact List.map_congr_left fun r hr => (hinv.rows.row r hr).2.2
  have ht1 : s''.count = s''.rows.length := g3.1
  have ht2 : s''.total = sizes s''.rows := g3.2
  refine ⟨ht1, by rw [ht2, hsz], ⟨rem, g2.perm, ?_⟩, ?_, ?_, ?_, ?_⟩
  · intro r hr k hk
    have hrow : ∀ r ∈ rows, r.dist = prefix32 (xorDistance node (env.idOf r.key)) := by
      intro r hr
      obtain ⟨a, b, -⟩ := hok.row r hr
      rw [b, a, distBigEndianU32_eq (xorDistance_lt _ _), prefix32]
    rw [← hrow r (g2.perm.mem_iff.mp (List.mem_append_right _ hr)), ← hrow k (g2.sub k hk)]
    exact g2.farther r hr k hk
  · intro hle
    rw [realUsage_eq cfg hok] at hle
    exact (g5 hle).1
  · intro ha
    rw [realUsage_eq cfg hinv.rows, ← ht1, ← ht2]
    exact Nat.le_of_not_lt (of_decide_eq_false (hinv.capacity ha))
  · rcases g7 with g | g | ⟨g, -⟩
    · by_cases he : s''.rows = []
      · rw [g.empty he]; split <;> omega
      · obtain ⟨far, -, -, e⟩ := g.farthest he
        rw [e]; omega
    · omega
    · omega
  · intro r hr
    rcases g7 with g | g | ⟨-, gc, gs⟩
    · have he : s''.rows ≠ [] := List.ne_nil_of_mem hr
      obtain ⟨far, hf, hmax, e⟩ := g.farthest he
      have hpre : ∀ r ∈ s''.rows, r.dist = prefix32 (xorDistance cfg.node (env.idOf r.key)) := by
        intro r hr
        obtain ⟨a, b, -⟩ := hinv.rows.row r hr
        rw [b, a, distBigEndianU32_eq (xorDistance_lt _ _), prefix32]
      rw [distance, (hinv.rows.row far hf).1] at e
      rw [e]
      by_cases hc : xorDistance cfg.node (env.idOf far.key) ≤ cfg.maxRadius
      · right
        rw [Nat.min_eq_left hc, ← hpre r hr, ← hpre far hf]
        exact hmax r hr
      · left; exact Nat.min_eq_right (by omega)
    · exact Or.inl g
    · -- with a capacity of zero there are no rows
      exfalso
      have hu := of_decide_eq_false gs
      rw [gc, Store.usage, ht2] at hu
      have hpos : 32 ≤ r.size := by
        rw [(hinv.rows.row r hr).2.2, contentSize]; omega
      have hle : r.size ≤ sizes s''.rows := by
        unfold sizes
        exact mem_le_sum _ _ (List.mem_map_of_mem hr)
      omega

/-- A store can be opened again for its node whenever and however it ended. -/
theorem C23_reopen (env : Env) (hq : Sql env) (node : Id) (rows : List Row) (hl : LeftBehind env node rows)
    (cfg : Config) (hn : cfg.node = node) (sps : List Speed) : ∃ s, create env cfg sps rows = .ok s := by
  obtain ⟨s', -, h2, -⟩ := create_spec env cfg hq sps rows node (leftBehind_ok hq hl)
  exact ⟨s', (h2 (Or.inr (by rw [hn]))).1⟩

/-- Rows that fit are opened for another node id only if it agrees in the first 32 bits. -/
theorem C23_other_node (env : Env) (hq : Sql env) (node : Id) (rows : List Row) (hl : LeftBehind env node rows)
    (cfg : Config) (sps : List Speed) (hne : rows ≠ []) (hfit : realUsage cfg rows ≤ cfg.capacity) :
    (prefix32 node.toNat ≠ prefix32 cfg.node.toNat → create env cfg sps rows = .error .wrongNode) ∧
    (prefix32 node.toNat = prefix32 cfg.node.toNat → ∃ s, create env cfg sps rows = .ok s) := by
  have hok := leftBehind_ok hq hl
  obtain ⟨s', h1, h2, h3⟩ := create_spec env cfg hq sps rows node hok
  obtain ⟨s'', rem, g1, g2, g3, g4, g5, -⟩ := openRows_spec env cfg hq sps rows
  rw [g1] at h1
  injection h1 with h1
  subst h1
  rw [realUsage_eq cfg hok] at hfit
  have hr := (g5 hfit).1
  constructor
  · intro h
    apply h3
    rw [hr, not_or]
    exact ⟨hne, h⟩
  · intro h
    exact ⟨_, (h2 (Or.inr h)).1⟩

/-! ## C24 -/

/-- The statistics never report less than there is. -/
theorem C24_at_least_partial (env : Env) (hq : Sql env) (cfg : Config) (s : Store) (hr : Reachable env (cfg, s)) :
    s.rows.length ≤ s.count ∧
    (s.rows.map fun r => 32 + r.key.length + r.value.length).sum ≤ s.total := by
  have hi := reachable_inv hq hr
  obtain ⟨more, h1, h2⟩ := hi.tracked
  have hsz : sizes s.rows = (s.rows.map fun r => 32 + r.key.length + r.value.length).sum := by
    unfold sizes
    congr 1
    exact List.map_congr_left fun r hr => (hi.rows.row r hr).2.2
  simp only at h1 h2
  omega

/-- As long as no key is inserted that is there already, the statistics are exact. -/
theorem C24_exact_partial (env : Env) (hq : Sql env) (cfg : Config) (sps : List Speed) (s0 : Store)
    (ops : List Op) (st : Config × Store) (hc : create env cfg sps [] = .ok s0)
    (hrun : run env (cfg, s0) ops = .ok st)
    (hno : ∀ pre sps k v post st1, ops = pre ++ .insert sps k v :: post → run env (cfg, s0) pre = .ok st1 →
      hasContent st1.2 (env.idOf k) = false) :
    st.2.count = st.2.rows.length ∧
    st.2.total = (st.2.rows.map fun r => 32 + r.key.length + r.value.length).sum ∧
    ∀ offset limit, (paginate st.2 offset limit).2 = st.2.rows.length := by
  have hi0 := create_inv env cfg hq sps [] cfg.node (RowsOk.nil _ _) s0 hc
  have ht0 := create_tracked env hq cfg sps [] cfg.node s0 (RowsOk.nil _ _) hc
  suffices Tracked st.2 [] by
    have hi := run_inv env hq ops _ _ hi0 hrun
    obtain ⟨h1, h2⟩ := this
    have hsz : sizes st.2.rows = (st.2.rows.map fun r => 32 + r.key.length + r.value.length).sum := by
      unfold sizes
      congr 1
      exact List.map_congr_left fun r hr => (hi.rows.row r hr).2.2
    simp only [List.length_nil, List.sum_nil, Nat.add_zero] at h1 h2
    exact ⟨h1, by rw [h2, hsz], fun _ _ => h1⟩
  exact run_exact env hq ops _ _ hi0 ht0 hrun hno

/-! ## The ephemeral store -/

/-- Its states are reached from an empty table. -/
def EphReachable (idOf : Bytes → Id) (s : Store) : Prop := ∃ ops, ephRun idOf (ephCreate []) ops = .ok s

theorem ephReachable_ok {idOf : Bytes → Id} {s : Store} (h : EphReachable idOf s) : EphOk idOf s := by
  obtain ⟨ops, h⟩ := h
  have h0 : EphOk idOf (ephCreate []) :=
    ⟨List.Pairwise.nil, by simp [ephCreate, Store.initUsage], [], by simp [Tracked, ephCreate, Store.initUsage]⟩
  generalize ephCreate [] = s0 at h h0
  induction ops generalizing s0 with
  | nil =>
    simp only [ephRun] at h
    injection h with h
    subst h
    exact h0
  | cons op ops ih =>
    obtain ⟨s1, h1, h2⟩ := ephStep_ok idOf s0 op h0
    simp only [ephRun, h1] at h
    exact ih s1 h h2

/-- The ephemeral store is a map: a new id is stored, one that is there keeps its value; a deletion removes
its id only; a restart changes nothing. No operation fails. -/
theorem C20_ephemeral (idOf : Bytes → Id) (s : Store) (hr : EphReachable idOf s) :
    (∀ key value id k v, Stored (ephInsert idOf s key value) id k v ↔
      Stored s id k v ∨ Absent s id ∧ id = idOf key ∧ k = key ∧ v = value) ∧
    (∀ id, ∃ s', delete s id = .ok s' ∧
      ∀ id' k v, Stored s' id' k v ↔ id' ≠ id ∧ Stored s id' k v) ∧
    (∀ id k v, Stored (ephCreate s.rows) id k v ↔ Stored s id k v) := by
  have hok := ephReachable_ok hr
  obtain ⟨more, ht⟩ := hok.tracked
  simp only [stored_iff, absent_iff]
  refine ⟨?_, ?_, fun _ _ _ => Iff.rfl⟩
  · intro key value id k v
    unfold ephInsert
    simp only
    rw [lookup_insertRow]
    cases hl : lookup s.rows id with
    | some kv => simp
    | none =>
      simp only
      split
      · next he => simp [he, eq_comm]
      · next he => simp [he]
  · intro id
    obtain ⟨s', h1, h2, -⟩ := delete_eph s more id hok.unique ht
    refine ⟨s', h1, ?_⟩
    intro id' k v
    rw [h2, lookup_filter]
    split
    · next h => simp [h]
    · next h => simp [h]

/-- The statistics of the ephemeral store never report less than there is, are exact after a restart, and
change by one entry of the inserted size: wrongly so if the id was there. -/
theorem C24_ephemeral_partial (idOf : Bytes → Id) (s : Store) (hr : EphReachable idOf s) :
    (s.rows.length ≤ s.count ∧ (s.rows.map fun r => 32 + r.key.length + r.value.length).sum ≤ s.total) ∧
    ((ephCreate s.rows).count = s.rows.length ∧
      (ephCreate s.rows).total = (s.rows.map fun r => 32 + r.key.length + r.value.length).sum) ∧
    (s.count = s.rows.length → s.total = (s.rows.map fun r => 32 + r.key.length + r.value.length).sum →
      (∀ key value, hasContent s (idOf key) = false →
        (ephInsert idOf s key value).count = (ephInsert idOf s key value).rows.length ∧
        (ephInsert idOf s key value).total =
          ((ephInsert idOf s key value).rows.map fun r => 32 + r.key.length + r.value.length).sum) ∧
      (∀ id s', delete s id = .ok s' → s'.count = s'.rows.length ∧
        s'.total = (s'.rows.map fun r => 32 + r.key.length + r.value.length).sum)) := by
  have hok := ephReachable_ok hr
  obtain ⟨more, ht⟩ := hok.tracked
  have hsz : ∀ s, EphOk idOf s → sizes s.rows = (s.rows.map fun r => 32 + r.key.length + r.value.length).sum := by
    intro s hok
    unfold sizes
    congr 1
    exact List.map_congr_left fun r hr => (hok.row r hr).2
  have h0 := hsz s hok
  refine ⟨?_, ⟨rfl, h0⟩, ?_⟩
  · obtain ⟨h1, h2⟩ := ht
    omega
  · intro h1 h2
    have ht0 : Tracked s [] := ⟨h1, by rw [h2, h0]; rfl⟩
    constructor
    · intro key value hh
      have := tracked_ephInsert idOf s [] key value ht0
      rw [hh, if_neg (by simp)] at this
      obtain ⟨s', e, hok'⟩ := ephStep_ok idOf s (.insert key value) hok
      simp only [ephStep] at e
      injection e with e
      subst e
      rw [← hsz _ hok']
      exact this
    · intro id s' e
      obtain ⟨s2, g1, g2, g3⟩ := delete_eph s [] id hok.unique ht0
      rw [g1] at e
      injection e with e
      subst e
      obtain ⟨s3, e3, hok'⟩ := ephStep_ok idOf s (.delete id) hok
      simp only [ephStep, g1] at e3
      injection e3 with e3
      subst e3
      rw [← hsz _ hok']
      exact g3

/-! ## Violations and examples -/

namespace StoreExample

/-- Ids are the keys themselves; SQLite is a stable sort. -/
def env : Env := ⟨fun k => BitVec.ofNat 256 (fromBe k), sortBy (fun a b => decide (b.dist ≤ a.dist)), .exact⟩
def cfg : Config := ⟨0, 100, 2 ^ 256 - 1, 0⟩
def key (n : UInt8) : Bytes := n :: List.replicate 31 0
/-- A key near the node. -/
def near (n : UInt8) : Bytes := [n]
def ins (k : Bytes) : Op := .insert [] k []

theorem sql : Sql env := by
  constructor
  · exact fun rows => sortBy_perm rows
  · intro rows
    have := sortBy_sorted (le := fun a b : Row => decide (b.dist ≤ a.dist))
      (fun a b => by simp only [decide_eq_true_eq]; omega)
      (fun a b c h1 h2 => by simp only [decide_eq_true_eq] at *; omega) rows
    refine this.imp ?_
    intro a b h
    simpa using h

theorem sound : env.arith.Sound := exact_sound

def start : Store := ⟨[], 2 ^ 256 - 1, 100, 0, 0⟩
theorem started : create env cfg [] [] = .ok start := by decide +kernel

/-- Three entries of 33 bytes fit; with the fourth two are removed and the radius shrinks. -/
example : (run env (cfg, start) [ins (near 1), ins (near 2), ins (near 3)]).map (fun st => (st.2.rows.length, st.2.total)) =
    .ok (3, 99) := by decide +kernel

/-- Keys at different distances: the farthest goes, and one as far is refused afterwards. -/
example : (run env ({ cfg with capacity := 150 }, start) [ins (key 1), ins (key 9), ins (key 2), ins (key 8)]).map
      (fun st => (st.2.rows.map Row.key, decide (st.2.radius = 2 * 2 ^ 248))) =
    .ok ([key 2, key 1], true) := by decide +kernel

end StoreExample

open StoreExample in
/-- Repeated insertion of one key makes the statistics count it again and again ... -/
theorem C24_duplicate_violated : ∃ st, Reachable env (cfg, st) ∧ st.count = 3 ∧ st.rows.length = 1 ∧
    st.total = 99 ∧ (paginate st 0 10) = ([near 1], 3) := by
  refine ⟨⟨[newRow env cfg (near 1) []], 2 ^ 256 - 1, 100, 3, 99⟩,
    ⟨cfg, [], start, [ins (near 1), ins (near 1), ins (near 1)], started, by decide +kernel⟩, by decide +kernel⟩

open StoreExample in
/-- ... until the store throws away everything, although a third of its capacity was in use, and reports
none of it. -/
theorem C22_unreported_violated : ∃ s s', Reachable env (cfg, s) ∧ realUsage cfg s.rows = 33 ∧ cfg.capacity = 100 ∧
    insert env cfg [] s (near 1) [] = .ok (s', []) ∧ s.rows.length = 1 ∧ s'.rows = [] := by
  refine ⟨⟨[newRow env cfg (near 1) []], 2 ^ 256 - 1, 100, 3, 99⟩, ⟨[], 2 ^ 256 - 1, 100, 0, 0⟩,
    ⟨cfg, [], start, [ins (near 1), ins (near 1), ins (near 1)], started, by decide +kernel⟩, by decide +kernel⟩

open StoreExample in
/-- Within the same 32-bit prefix a nearer entry may be removed and a farther one kept, and a kept entry may be
outside the radius. -/
theorem C22_full_distance_violated : ∃ s s', Reachable env (cfg, s) ∧
    insert env cfg [] s (near 4) [] = .ok (s', [(near 1, []), (near 2, [])]) ∧
    s'.rows.map Row.key = [near 3, near 4] ∧ s'.radius = 3 ∧
    xorDistance cfg.node (env.idOf (near 1)) = 1 ∧ xorDistance cfg.node (env.idOf (near 4)) = 4 := by
  refine ⟨⟨[newRow env cfg (near 1) [], newRow env cfg (near 2) [], newRow env cfg (near 3) []], 2 ^ 256 - 1, 100, 3, 99⟩,
    ⟨[newRow env cfg (near 3) [], newRow env cfg (near 4) []], 3, 100, 2, 66⟩,
    ⟨cfg, [], start, [ins (near 1), ins (near 2), ins (near 3)], started, by decide +kernel⟩, by decide +kernel⟩

namespace StoreExample

/-- A kill between two pruning statements, a failed attempt for another node, a restart with less capacity. -/
example : (run env ({ cfg with capacity := 150 }, start)
      [ins (key 1), ins (key 2), .kill [] (key 9) [] (some 0) [({ cfg with node := 2 ^ 255 }, [])] { cfg with capacity := 70 } [],
        .delete (env.idOf (key 2))]).map (fun st => (st.2.rows.map Row.key, st.2.count)) =
    .ok ([key 1], 1) := by decide +kernel

/-- Opening for another node is refused. -/
example : (run env (cfg, start) [ins (key 1), .restart [] { cfg with node := 2 ^ 255 } []]).map (fun _ => ()) =
    .error .wrongNode := by decide +kernel

/-- ... but not for one with the same first 32 bits. -/
example : (run env (cfg, start) [ins (key 1), .restart [] { cfg with node := 1 } []]).map (fun st => st.2.count) =
    .ok 1 := by decide +kernel

/-- The ephemeral store. -/
example : (ephRun env.idOf (ephCreate []) [.insert (key 1) [5], .insert (key 1) [6], .delete (env.idOf (key 2))]).map
    (fun s => (s.rows.map Row.value, s.count)) = .ok ([[5]], 2) := by decide +kernel

end StoreExample

end Verif.Props
