import Verif.Model.Store
import Verif.Lemmas.Distance
import Verif.Lemmas.Sort

namespace Verif.Store

/-- What is assumed of `ORDER BY distance_short DESC`. -/
structure Sql (env : Env) : Prop where
  perm : ∀ rows, (env.order rows).Perm rows
  desc : ∀ rows, (env.order rows).Pairwise fun a b => b.dist ≤ a.dist

/-- What is assumed of the floating point computation: above the capacity, not all entries fit the
target. -/
def Arith.Sound (a : Arith) : Prop :=
  ∀ cap count total extra, 0 < cap → 0 < count → cap < total + count * extra →
    a.fit (a.target cap) count total extra < count

theorem exact_sound : Arith.exact.Sound := by
  intro cap count total extra hcap hcount hlt
  simp only [Arith.exact]
  apply (Nat.div_lt_iff_lt_mul (by omega)).mpr
  have h1 : (cap * 95 + 50) / 100 ≤ cap := by omega
  have h2 : (cap * 95 + 50) / 100 < total + count * extra := by omega
  calc (cap * 95 + 50) / 100 * count < (total + count * extra) * count := Nat.mul_lt_mul_of_pos_right h2 hcount
    _ = count * (total + count * extra) := Nat.mul_comm ..

/-- The rows of a table written for `node`. -/
structure RowsOk (env : Env) (node : Id) (rows : List Row) : Prop where
  unique : rows.Pairwise fun a b => a.id ≠ b.id
  row : ∀ r ∈ rows, r.id = env.idOf r.key ∧ r.dist = distBigEndianU32 (xorDistance node r.id) ∧
    r.size = contentSize r.key r.value

/-- The statistics count the rows and some entries more (the repeated insertions). -/
def Tracked (s : Store) (more : List Nat) : Prop :=
  s.count = s.rows.length + more.length ∧ s.total = sizes s.rows + more.sum

theorem sizes_append (a b : List Row) : sizes (a ++ b) = sizes a + sizes b := by
  simp [sizes]

theorem sizes_perm {a b : List Row} (h : a.Perm b) : sizes a = sizes b := by
  have := h.map Row.size
  simp only [sizes]
  exact this.sum_nat

theorem RowsOk.perm {env : Env} {node : Id} {a b : List Row} (h : RowsOk env node a) (hp : a.Perm b) :
    RowsOk env node b :=
  ⟨(hp.pairwise_iff (fun h => Ne.symm h)).mp h.unique, fun r hr => h.row r (hp.mem_iff.mpr hr)⟩

theorem RowsOk.sublist {env : Env} {node : Id} {a b : List Row} (h : RowsOk env node b) (hp : a.Sublist b) :
    RowsOk env node a :=
  ⟨h.unique.sublist hp, fun r hr => h.row r (hp.subset hr)⟩

theorem RowsOk.nil (env : Env) (node : Id) : RowsOk env node [] := ⟨List.Pairwise.nil, by simp⟩

/-! ## Lookup -/

theorem lookup_none {rows : List Row} {id : Id} : lookup rows id = none ↔ ∀ r ∈ rows, r.id ≠ id := by
  simp [lookup, List.find?_eq_none]

theorem find_unique {rows : List Row} (hu : rows.Pairwise fun a b => a.id ≠ b.id) {r : Row} (hr : r ∈ rows) :
    rows.find? (fun x => x.id == r.id) = some r := by
  induction rows with
  | nil => cases hr
  | cons a l ih =>
    rw [List.find?_cons]
    obtain ⟨h1, h2⟩ := List.pairwise_cons.mp hu
    rcases List.mem_cons.mp hr with rfl | hr
    · simp
    · rw [show (a.id == r.id) = false from beq_false_of_ne (h1 r hr)]
      exact ih h2 hr

theorem lookup_eq_some {rows : List Row} (hu : rows.Pairwise fun a b => a.id ≠ b.id) {id : Id}
    {kv : Bytes × Bytes} : lookup rows id = some kv ↔ ∃ r ∈ rows, r.id = id ∧ (r.key, r.value) = kv := by
  simp only [lookup, Option.map_eq_some_iff]
  constructor
  · rintro ⟨r, hf, rfl⟩
    have h1 := List.mem_of_find?_eq_some hf
    have h2 := List.find?_some hf
    exact ⟨r, h1, by simpa using h2, rfl⟩
  · rintro ⟨r, hr, rfl, rfl⟩
    exact ⟨r, find_unique hu hr, rfl⟩

theorem lookup_perm {a b : List Row} (hu : a.Pairwise fun a b => a.id ≠ b.id) (hp : a.Perm b) (id : Id) :
    lookup a id = lookup b id := by
  have hu' := (hp.pairwise_iff (fun h => Ne.symm h)).mp hu
  cases h : lookup b id with
  | none =>
    rw [lookup_none] at h ⊢
    exact fun r hr => h r (hp.mem_iff.mp hr)
  | some kv =>
    rw [lookup_eq_some hu'] at h
    rw [lookup_eq_some hu]
    obtain ⟨r, hr, h⟩ := h
    exact ⟨r, hp.mem_iff.mpr hr, h⟩

/-- Rows that are part of others: a lookup finds the same or nothing. -/
theorem lookup_subset {a b : List Row} (ha : a.Pairwise fun a b => a.id ≠ b.id)
    (hb : b.Pairwise fun a b => a.id ≠ b.id) (hs : ∀ r ∈ a, r ∈ b) (id : Id) :
    lookup a id = lookup b id ∨ lookup a id = none := by
  cases h : lookup a id with
  | none => exact Or.inr rfl
  | some kv =>
    left
    obtain ⟨r, hr, h1, h2⟩ := (lookup_eq_some ha).mp h
    exact ((lookup_eq_some hb).mpr ⟨r, hs r hr, h1, h2⟩).symm

theorem lookup_insertRow (rows : List Row) (r : Row) (id : Id) :
    lookup (insertRow rows r) id =
      match lookup rows id with
      | some kv => some kv
      | none => if id = r.id then some (r.key, r.value) else none := by
  simp only [insertRow]
  split
  · next h =>
    cases hl : lookup rows id with
    | some kv => rfl
    | none =>
      simp only
      rw [if_neg]
      rintro rfl
      rw [lookup_none] at hl
      rw [List.any_eq_true] at h
      obtain ⟨x, hx, he⟩ := h
      exact hl x hx (by simpa using he)
  · next h =>
    simp only [lookup, List.find?_append]
    cases hl : rows.find? (fun x => x.id == id) with
    | some x => simp
    | none =>
      simp only [Option.none_or, Option.map_none, List.find?_singleton]
      by_cases he : id = r.id
      · subst he; simp
      · rw [if_neg he, if_neg]
        · rfl
        · simp only [beq_iff_eq]; exact fun e => he e.symm

theorem RowsOk.insertRow {env : Env} {cfg : Config} {rows : List Row} (h : RowsOk env cfg.node rows)
    (key value : Bytes) : RowsOk env cfg.node (insertRow rows (newRow env cfg key value)) := by
  unfold Store.insertRow
  split
  · exact h
  · next hn =>
    refine ⟨?_, ?_⟩
    · rw [List.pairwise_append]
      refine ⟨h.unique, by simp, ?_⟩
      intro a ha b hb
      rw [List.mem_singleton] at hb
      subst hb
      intro he
      apply hn
      rw [List.any_eq_true]
      exact ⟨a, ha, by simpa using he⟩
    · intro r hr
      rcases List.mem_append.mp hr with hr | hr
      · exact h.row r hr
      · rw [List.mem_singleton] at hr
        subst hr
        simp only [newRow, distance, and_self]

theorem tracked_inserted (env : Env) (cfg : Config) (s : Store) (more : List Nat) (key value : Bytes)
    (h : Tracked s more) :
    Tracked (inserted env cfg s key value)
      (if hasContent s (env.idOf key) then contentSize key value :: more else more) := by
  have hiff : (s.rows.any fun x => x.id == env.idOf key) = hasContent s (env.idOf key) := by
    unfold hasContent
    cases hl : lookup s.rows (env.idOf key) with
    | none =>
      rw [lookup_none] at hl
      simp only [Option.isSome_none, List.any_eq_false, beq_iff_eq]
      exact hl
    | some kv =>
      simp only [Option.isSome_some, List.any_eq_true, beq_iff_eq]
      simp only [lookup, Option.map_eq_some_iff] at hl
      obtain ⟨r, hr, -⟩ := hl
      exact ⟨r, List.mem_of_find?_eq_some hr, by simpa using List.find?_some hr⟩
  have hrows : (inserted env cfg s key value).rows = insertRow s.rows (newRow env cfg key value) := rfl
  have hc : (inserted env cfg s key value).count = s.count + 1 := rfl
  have ht : (inserted env cfg s key value).total = s.total + contentSize key value := rfl
  have hid : (newRow env cfg key value).id = env.idOf key := rfl
  have hsz : (newRow env cfg key value).size = contentSize key value := rfl
  obtain ⟨h1, h2⟩ := h
  unfold Tracked
  rw [hrows, hc, ht]
  unfold insertRow
  rw [hid, hiff]
  cases hasContent s (env.idOf key) with
  | true =>
    rw [if_pos rfl, if_pos rfl, List.length_cons, List.sum_cons]
    omega
  | false =>
    rw [if_neg (by simp), if_neg (by simp), List.length_append, sizes_append, List.length_singleton]
    have : sizes [newRow env cfg key value] = contentSize key value := by
      simp [sizes, hsz]
    omega

/-! ## Pruning -/

/-- What a pruning loop does to the rows: `kept` and `removed` make up the rows before, no removed row is
nearer than a kept one. -/
structure Split (before kept removed : List Row) : Prop where
  perm : (kept ++ removed).Perm before
  farther : ∀ r ∈ removed, ∀ k ∈ kept, k.dist ≤ r.dist

theorem Split.refl (rows : List Row) : Split rows rows [] := ⟨by simp, by simp⟩

theorem Split.trans {a b c x y : List Row} (h1 : Split a b x) (h2 : Split b c y) : Split a c (x ++ y) := by
  constructor
  · refine List.Perm.trans ?_ ((h2.perm.append_right x).trans h1.perm)
    rw [List.append_assoc]
    exact List.Perm.append_left c List.perm_append_comm
  · intro r hr k hk
    have hkb : k ∈ b := h2.perm.mem_iff.mp (List.mem_append_left _ hk)
    rcases List.mem_append.mp hr with hr | hr
    · exact h1.farther r hr k hkb
    · exact h2.farther r hr k hk

theorem split_take {env : Env} (hq : Sql env) (rows : List Row) (n : Nat) :
    Split rows ((env.order rows).drop n) ((env.order rows).take n) := by
  constructor
  · refine List.Perm.trans List.perm_append_comm ?_
    rw [List.take_append_drop]
    exact hq.perm rows
  · intro r hr k hk
    have := hq.desc rows
    rw [← List.take_append_drop n (env.order rows), List.pairwise_append] at this
    exact this.2.2 r hr k hk

/-- The outcome of one turn. -/
theorem pruneTurn_cases (env : Env) (cfg : Config) (hq : Sql env) (sp : Speed) (s : Store) (more : List Nat)
    (ht : Tracked s more) :
    (s.shouldPrune cfg = false ∧ pruneTurn env cfg sp s = .stop s) ∨
    (s.shouldPrune cfg = true ∧ pruningCount env cfg s = 0 ∧ pruneTurn env cfg sp s = .early s) ∨
    (s.shouldPrune cfg = true ∧ s.rows.length < pruningCount env cfg s ∧
      ∃ s', pruneTurn env cfg sp s = .stop s' ∧ s'.rows = [] ∧ s'.count = 0 ∧ s'.total = 0 ∧
        s'.radius = s.radius ∧ s'.maxPrune = observe env sp s.maxPrune) ∨
    (s.shouldPrune cfg = true ∧ 0 < pruningCount env cfg s ∧ pruningCount env cfg s ≤ s.rows.length ∧
      ∃ s' deleted, pruneTurn env cfg sp s = .next s' deleted ∧ Split s.rows s'.rows deleted ∧
        deleted.length = pruningCount env cfg s ∧ Tracked s' more ∧ s'.radius = s.radius ∧
        s'.maxPrune = observe env sp s.maxPrune) := by
  cases hs : s.shouldPrune cfg with
  | false => exact Or.inl ⟨rfl, by unfold pruneTurn; rw [if_pos hs]⟩
  | true =>
    right
    have hs' : ¬ s.shouldPrune cfg = false := by rw [hs]; simp
    by_cases hn : pruningCount env cfg s = 0
    · exact Or.inl ⟨rfl, hn, by unfold pruneTurn; rw [if_neg hs']; simp only; rw [if_pos hn]⟩
    right
    have hlen := (hq.perm s.rows).length_eq
    by_cases hlt : s.rows.length < pruningCount env cfg s
    · left
      refine ⟨rfl, hlt, Store.initUsage { s with
        rows := (env.order s.rows).drop (pruningCount env cfg s), maxPrune := observe env sp s.maxPrune }, ?_, ?_⟩
      · unfold pruneTurn
        rw [if_neg hs']
        simp only
        rw [if_neg hn, if_pos]
        rw [List.length_take, hlen]
        omega
      · have hd : (env.order s.rows).drop (pruningCount env cfg s) = [] := by
          rw [List.drop_eq_nil_iff, hlen]; omega
        simp [Store.initUsage, hd, sizes]
    · right
      have hsp := split_take hq s.rows (pruningCount env cfg s)
      have hdl : ((env.order s.rows).take (pruningCount env cfg s)).length = pruningCount env cfg s := by
        rw [List.length_take, hlen]; omega
      have hsz := sizes_perm hsp.perm
      rw [sizes_append] at hsz
      have hln := hsp.perm.length_eq
      rw [List.length_append, hdl] at hln
      refine ⟨rfl, by omega, by omega, { s with
          rows := (env.order s.rows).drop (pruningCount env cfg s), maxPrune := observe env sp s.maxPrune
          count := s.count - pruningCount env cfg s
          total := s.total - sizes ((env.order s.rows).take (pruningCount env cfg s)) },
        (env.order s.rows).take (pruningCount env cfg s), ?_, hsp, hdl, ?_, ?_, ?_⟩
      · unfold pruneTurn
        rw [if_neg hs']
        simp only
        rw [if_neg hn, if_neg (by rw [hdl]; simp), if_neg]
        have h1 := ht.1
        have h2 := ht.2
        omega
      · have h1 := ht.1
        have h2 := ht.2
        refine ⟨?_, ?_⟩ <;> simp only <;> omega
      · rfl
      · rfl

/-- The pruning loop ends, removes the farthest rows, keeps the statistics honest and stops only below the
capacity (or when there is nothing to prune). -/
theorem pruneLoop_spec (env : Env) (cfg : Config) (hq : Sql env) : ∀ (fuel : Nat) (sps : List Speed) (s : Store)
    (dropped : List Row) (more : List Nat), Tracked s more → s.rows.length < fuel →
    ∃ s' removed reported flag more', pruneLoop env cfg fuel sps s dropped = .ok (s', dropped ++ reported, flag) ∧
      Split s.rows s'.rows removed ∧ Tracked s' more' ∧ (more' = more ∧ reported = removed ∨
        more' = [] ∧ s'.rows = [] ∧ (more ≠ [] ∧ ∀ r ∈ reported, r ∈ removed)) ∧
      s'.radius = s.radius ∧
      (flag = true → s'.shouldPrune cfg = false) ∧
      (flag = false → s'.shouldPrune cfg = true ∧ pruningCount env cfg s' = 0) ∧
      (0 < s.maxPrune → 0 < s'.maxPrune)
  | 0, _, _, _, _, _, hf => by omega
  | fuel + 1, sps, s, dropped, more, ht, hf => by
    simp only [pruneLoop]
    have hobs : 0 < s.maxPrune → 0 < observe env (sps.headD .optimal) s.maxPrune := by
      intro h
      unfold observe
      split <;> omega
    rcases pruneTurn_cases env cfg hq (sps.headD .optimal) s more ht with
      ⟨hs, he⟩ | ⟨hs, hn, he⟩ | ⟨hs, hlt, s', he, hr, hc, hto, hra, hm⟩ | ⟨hs, hn, hle, s', del, he, hsp, hdl, ht', hra, hm⟩
    · rw [he]
      exact ⟨s, [], [], true, more, by simp, Split.refl _, ht, Or.inl ⟨rfl, rfl⟩, rfl, fun _ => hs,
        fun h => (by cases h), id⟩
    · rw [he]
      exact ⟨s, [], [], false, more, by simp, Split.refl _, ht, Or.inl ⟨rfl, rfl⟩, rfl, fun h => (by cases h),
        fun _ => ⟨hs, hn⟩, id⟩
    · rw [he]
      have hmore : more ≠ [] := by
        rintro rfl
        -- the count of the statistics is right, so not more is asked for than there is
        have h1 := ht.1
        simp only [List.length_nil, Nat.add_zero] at h1
        have : pruningCount env cfg s ≤ s.count := by
          unfold pruningCount
          split
          · omega
          · split
            · omega
            · unfold estimate
              simp only
              split
              · omega
              · split <;> omega
        omega
      refine ⟨s', s.rows, [], true, [], by simp, ⟨by rw [hr]; simp, by rw [hr]; simp⟩, ?_, ?_, hra, ?_,
        (fun h => by cases h), ?_⟩
      · rw [Tracked, hr, hc, hto]; simp [sizes]
      · exact Or.inr ⟨rfl, hr, hmore, by simp⟩
      · intro _
        simp [Store.shouldPrune, Store.usage, hc, hto]
      · intro h
        rw [hm]; exact hobs h
    · rw [he]
      simp only
      have hln := hsp.perm.length_eq
      rw [List.length_append] at hln
      obtain ⟨s'', rem, rep, flag, more', h1, h2, h3, h4, h5, h6, h7, h8⟩ :=
        pruneLoop_spec env cfg hq fuel sps.tail s' (dropped ++ del) more ht' (by omega)
      refine ⟨s'', del ++ rem, del ++ rep, flag, more', by rw [h1, List.append_assoc], hsp.trans h2, h3, ?_,
        h5.trans hra, h6, h7, ?_⟩
      · rcases h4 with ⟨ha, hb⟩ | ⟨ha, hb, hc, hd⟩
        · exact Or.inl ⟨ha, by rw [hb]⟩
        · refine Or.inr ⟨ha, hb, hc, ?_⟩
          intro r hr
          rcases List.mem_append.mp hr with hr | hr
          · exact List.mem_append_left _ hr
          · exact List.mem_append_right _ (hd r hr)
      · intro h
        exact h8 (by rw [hm]; exact hobs h)

theorem setRadius_fields (env : Env) (cfg : Config) (s : Store) :
    (setRadius env cfg s).rows = s.rows ∧ (setRadius env cfg s).count = s.count ∧
    (setRadius env cfg s).total = s.total ∧ (setRadius env cfg s).maxPrune = s.maxPrune := by
  unfold setRadius
  split <;> exact ⟨rfl, rfl, rfl, rfl⟩

/-- With sound arithmetic there is always something to prune above the capacity. -/
theorem pruningCount_pos (env : Env) (cfg : Config) (ha : env.arith.Sound) (s : Store) (more : List Nat)
    (ht : Tracked s more) (hm : 0 < s.maxPrune) (hs : s.shouldPrune cfg = true) : 0 < pruningCount env cfg s := by
  have hu : cfg.capacity < s.usage cfg := by simpa [Store.shouldPrune] using hs
  have hc : 0 < s.count := by
    apply Nat.pos_of_ne_zero
    intro h0
    have h1 := ht.1
    have h2 := ht.2
    rw [h0] at h1
    have e1 : s.rows = [] := List.eq_nil_of_length_eq_zero (by omega)
    have e2 : more = [] := List.eq_nil_of_length_eq_zero (by omega)
    rw [e1, e2] at h2
    simp [Store.usage, h0, h2, sizes] at hu
  unfold pruningCount
  rw [if_neg (by rw [hs]; simp)]
  split
  · exact hc
  · next hcap =>
    have hfit := ha cfg.capacity s.count s.total cfg.extra (by omega) hc hu
    unfold estimate
    rw [if_neg (by omega)]
    simp only
    rw [if_pos hfit]
    omega

/-- The radius after pruning is the distance of a farthest row, capped. -/
structure RadiusIs (cfg : Config) (rows : List Row) (radius : Nat) : Prop where
  empty : rows = [] → radius = if cfg.capacity = 0 then 0 else cfg.maxRadius
  farthest : rows ≠ [] → ∃ far ∈ rows, (∀ r ∈ rows, r.dist ≤ far.dist) ∧
    radius = min (distance cfg far.id) cfg.maxRadius

theorem setRadius_spec (env : Env) (cfg : Config) (hq : Sql env) (s : Store) :
    RadiusIs cfg s.rows (setRadius env cfg s).radius := by
  have hp := hq.perm s.rows
  have hd := hq.desc s.rows
  unfold setRadius
  cases ho : env.order s.rows with
  | nil =>
    rw [ho] at hp
    have := hp.nil_eq
    constructor
    · intro _; simp
    · intro h; exact absurd this.symm h
  | cons far rest =>
    rw [ho] at hp hd
    constructor
    · intro h
      rw [h] at hp
      exact absurd hp.eq_nil (by simp)
    · intro _
      refine ⟨far, hp.mem_iff.mp (by simp), ?_, rfl⟩
      intro r hr
      rcases List.mem_cons.mp (hp.mem_iff.mpr hr) with rfl | h
      · omega
      · exact (List.pairwise_cons.mp hd).1 r h

/-- `prune`. -/
theorem prune_spec (env : Env) (cfg : Config) (hq : Sql env) (sps : List Speed) (s : Store) (more : List Nat)
    (ht : Tracked s more) (hs : s.shouldPrune cfg = true) :
    ∃ s' removed reported more', prune env cfg sps s = .ok (s', reported) ∧
      Split s.rows s'.rows removed ∧ Tracked s' more' ∧ (more' = more ∧ reported = removed ∨
        more' = [] ∧ s'.rows = [] ∧ (more ≠ [] ∧ ∀ r ∈ reported, r ∈ removed)) ∧
      (0 < s.maxPrune → 0 < s'.maxPrune) ∧
      (s'.shouldPrune cfg = false ∧ RadiusIs cfg s'.rows s'.radius ∨
        s'.shouldPrune cfg = true ∧ pruningCount env cfg s' = 0 ∧ s'.radius = s.radius) := by
  obtain ⟨s', rem, rep, flag, more', h1, h2, h3, h4, h5, h6, h7, h8⟩ :=
    pruneLoop_spec env cfg hq (s.rows.length + 1) sps s [] more ht (by omega)
  have hsf := setRadius_fields env cfg s'
  cases flag with
  | true =>
    refine ⟨setRadius env cfg s', rem, rep, more', ?_, ?_, ?_, ?_, ?_, Or.inl ⟨?_, ?_⟩⟩
    · unfold prune
      rw [if_neg (by rw [hs]; simp), h1]
      simp
    · rw [hsf.1]; exact h2
    · rw [Tracked, hsf.1, hsf.2.1, hsf.2.2.1]; exact h3
    · rw [hsf.1]; exact h4
    · rw [hsf.2.2.2]; exact h8
    · have := h6 rfl
      rw [Store.shouldPrune, Store.usage] at this ⊢
      rw [hsf.2.1, hsf.2.2.1]; exact this
    · rw [hsf.1]; exact setRadius_spec env cfg hq s'
  | false =>
    refine ⟨s', rem, rep, more', ?_, h2, h3, h4, h8, Or.inr ⟨(h7 rfl).1, (h7 rfl).2, h5⟩⟩
    unfold prune
    rw [if_neg (by rw [hs]; simp), h1]
    simp

/-! ## Killed insertions -/

theorem killedTurns_subset (env : Env) (cfg : Config) (hq : Sql env) : ∀ (k : Nat) (sps : List Speed) (s : Store)
    (more : List Nat), Tracked s more → ∃ removed, Split s.rows (killedTurns env cfg k sps s) removed
  | 0, _, s, _, _ => ⟨[], Split.refl _⟩
  | k + 1, sps, s, more, ht => by
    simp only [killedTurns]
    rcases pruneTurn_cases env cfg hq (sps.headD .optimal) s more ht with
      ⟨hs, he⟩ | ⟨hs, hn, he⟩ | ⟨hs, hlt, s', he, hr, -⟩ | ⟨hs, hn, hle, s', del, he, hsp, hdl, ht', -⟩
    · rw [he]; exact ⟨[], Split.refl _⟩
    · rw [he]; exact ⟨[], Split.refl _⟩
    · rw [he]; exact ⟨s.rows, by simp [hr], by simp [hr]⟩
    · rw [he]
      simp only
      obtain ⟨rem, h⟩ := killedTurns_subset env cfg hq k sps.tail s' more ht'
      exact ⟨del ++ rem, hsp.trans h⟩


/-! ## Operations -/

theorem insert_spec (env : Env) (cfg : Config) (hq : Sql env) (sps : List Speed) (s : Store) (more : List Nat)
    (key value : Bytes) (ht : Tracked s more) (hd : distance cfg (env.idOf key) ≤ s.radius) :
    ∃ s' removed reported more',
      insert env cfg sps s key value = .ok (s', reported.map fun r => (r.key, r.value)) ∧
      Split (insertRow s.rows (newRow env cfg key value)) s'.rows removed ∧ Tracked s' more' ∧
      (more' = (if hasContent s (env.idOf key) then contentSize key value :: more else more) ∧ reported = removed ∨
        more' = [] ∧ s'.rows = [] ∧
          (if hasContent s (env.idOf key) then contentSize key value :: more else more) ≠ [] ∧
          ∀ r ∈ reported, r ∈ removed) ∧
      (0 < s.maxPrune → 0 < s'.maxPrune) ∧
      ((inserted env cfg s key value).shouldPrune cfg = false ∧ s' = inserted env cfg s key value ∧ reported = [] ∨
        (inserted env cfg s key value).shouldPrune cfg = true ∧
          (s'.shouldPrune cfg = false ∧ RadiusIs cfg s'.rows s'.radius ∨
            s'.shouldPrune cfg = true ∧ pruningCount env cfg s' = 0 ∧ s'.radius = s.radius)) := by
  have hti := tracked_inserted env cfg s more key value ht
  unfold insert
  rw [if_neg (by omega)]
  cases hs : (inserted env cfg s key value).shouldPrune cfg with
  | false =>
    refine ⟨inserted env cfg s key value, [], [], _, ?_, Split.refl _, hti, Or.inl ⟨rfl, rfl⟩, id, Or.inl ⟨rfl, rfl, rfl⟩⟩
    simp only
    rw [if_neg (by rw [hs]; simp)]
    rfl
  | true =>
    obtain ⟨s', rem, rep, more', h1, h2, h3, h4, h5, h6⟩ := prune_spec env cfg hq sps _ _ hti hs
    refine ⟨s', rem, rep, more', ?_, h2, h3, h4, h5, Or.inr ⟨rfl, h6⟩⟩
    simp only
    rw [if_pos hs, h1]

theorem insert_refused (env : Env) (cfg : Config) (sps : List Speed) (s : Store) (key value : Bytes)
    (hd : s.radius < distance cfg (env.idOf key)) :
    insert env cfg sps s key value = .error .insufficientRadius := by
  unfold insert
  rw [if_pos hd]

theorem openRows_spec (env : Env) (cfg : Config) (hq : Sql env) (sps : List Speed) (rows : List Row) :
    ∃ s' removed, openRows env cfg sps rows = .ok s' ∧ Split rows s'.rows removed ∧ Tracked s' [] ∧
      0 < s'.maxPrune ∧
      (sizes rows + rows.length * cfg.extra ≤ cfg.capacity → s'.rows = rows ∧ s'.shouldPrune cfg = false ∧
        (RadiusIs cfg s'.rows s'.radius ∨ s'.radius = cfg.maxRadius ∨
          s'.radius = 0 ∧ cfg.capacity = 0 ∧ s'.shouldPrune cfg = false)) ∧
      (s'.shouldPrune cfg = true → pruningCount env cfg s' = 0) ∧
      (RadiusIs cfg s'.rows s'.radius ∨ s'.radius = cfg.maxRadius ∨
        s'.radius = 0 ∧ cfg.capacity = 0 ∧ s'.shouldPrune cfg = false) := by
  have ht0 : Tracked (Store.initUsage ⟨rows, cfg.maxRadius, 100, 0, 0⟩) [] := by
    simp [Tracked, Store.initUsage]
  have hu : (Store.initUsage ⟨rows, cfg.maxRadius, 100, 0, 0⟩).shouldPrune cfg =
      decide (sizes rows + rows.length * cfg.extra > cfg.capacity) := rfl
  unfold openRows
  simp only
  cases hs : (Store.initUsage ⟨rows, cfg.maxRadius, 100, 0, 0⟩).shouldPrune cfg with
  | true =>
    obtain ⟨s', rem, rep, more', h1, h2, h3, h4, h5, h6⟩ := prune_spec env cfg hq sps _ _ ht0 hs
    have hm : more' = [] := by
      rcases h4 with h | h
      · exact h.1
      · exact absurd rfl h.2.2.1
    subst hm
    refine ⟨s', rem, ?_, h2, h3, h5 (show 0 < 100 by decide), ?_, ?_, ?_⟩
    · rw [if_pos rfl, h1]
    · intro hle
      rw [hu] at hs
      simp only [decide_eq_true_eq] at hs
      omega
    · intro hp
      rcases h6 with h | h
      · rw [h.1] at hp; cases hp
      · exact h.2.1
    · rcases h6 with h | h
      · exact Or.inl h.2
      · exact Or.inr (Or.inl h.2.2)
  | false =>
    rw [if_neg (by simp)]
    have hsf := setRadius_fields env cfg (Store.initUsage ⟨rows, cfg.maxRadius, 100, 0, 0⟩)
    split
    · have hrad := setRadius_spec env cfg hq (Store.initUsage ⟨rows, cfg.maxRadius, 100, 0, 0⟩)
      have hsp : (setRadius env cfg (Store.initUsage ⟨rows, cfg.maxRadius, 100, 0, 0⟩)).shouldPrune cfg = false := by
        rw [Store.shouldPrune, Store.usage] at hs ⊢
        rw [hsf.2.1, hsf.2.2.1]; exact hs
      refine ⟨_, [], rfl, ?_, ?_, ?_, ?_, ?_, ?_⟩
      · rw [hsf.1]; exact Split.refl _
      · rw [Tracked, hsf.1, hsf.2.1, hsf.2.2.1]; exact ht0
      · rw [hsf.2.2.2]; exact (show 0 < 100 by decide)
      · intro _
        refine ⟨by rw [hsf.1]; rfl, hsp, ?_⟩
        rw [hsf.1]; exact Or.inl hrad
      · intro h; rw [hsp] at h; cases h
      · rw [hsf.1]; exact Or.inl hrad
    · split
      · next hc =>
        refine ⟨_, [], rfl, Split.refl _, ht0, (show 0 < 100 by decide), fun _ => ⟨rfl, hs, ?_⟩, ?_, ?_⟩
        · exact Or.inr (Or.inr ⟨rfl, hc, hs⟩)
        · intro h; exact absurd (h.symm.trans hs) (by simp)
        · exact Or.inr (Or.inr ⟨rfl, hc, hs⟩)
      · refine ⟨_, [], rfl, Split.refl _, ht0, (show 0 < 100 by decide), fun _ => ⟨rfl, hs, Or.inr (Or.inl rfl)⟩, ?_,
          Or.inr (Or.inl rfl)⟩
        intro h; exact absurd (h.symm.trans hs) (by simp)

theorem dist32_eq (n id : Id) : distBigEndianU32 (xorDistance n id) = n.toNat / 2 ^ 224 ^^^ id.toNat / 2 ^ 224 := by
  rw [distBigEndianU32_eq (xorDistance_lt n id), xorDistance_eq, Nat.xor_div_two_pow]

theorem dist32_node {n m id : Id} (h : distBigEndianU32 (xorDistance n id) = distBigEndianU32 (xorDistance m id)) :
    n.toNat / 2 ^ 224 = m.toNat / 2 ^ 224 := by
  rw [dist32_eq, dist32_eq] at h
  have := congrArg (fun t => t ^^^ id.toNat / 2 ^ 224) h
  simpa [Nat.xor_assoc] using this

theorem RowsOk.node {env : Env} {n m : Id} {rows : List Row} (h : RowsOk env n rows)
    (he : n.toNat / 2 ^ 224 = m.toNat / 2 ^ 224) : RowsOk env m rows := by
  refine ⟨h.unique, fun r hr => ?_⟩
  obtain ⟨h1, h2, h3⟩ := h.row r hr
  refine ⟨h1, ?_, h3⟩
  rw [h2, dist32_eq, dist32_eq, he]

/-- The node check. -/
theorem create_spec (env : Env) (cfg : Config) (hq : Sql env) (sps : List Speed) (rows : List Row) (n : Id)
    (hr : RowsOk env n rows) :
    ∃ s', openRows env cfg sps rows = .ok s' ∧
      (s'.rows = [] ∨ n.toNat / 2 ^ 224 = cfg.node.toNat / 2 ^ 224 → create env cfg sps rows = .ok s' ∧
        RowsOk env cfg.node s'.rows) ∧
      (¬(s'.rows = [] ∨ n.toNat / 2 ^ 224 = cfg.node.toNat / 2 ^ 224) →
        create env cfg sps rows = .error .wrongNode) := by
  obtain ⟨s', rem, h1, h2, h3, h4, h5, h6⟩ := openRows_spec env cfg hq sps rows
  have hr' : RowsOk env n s'.rows := (hr.perm h2.perm.symm).sublist (List.sublist_append_left _ _)
  refine ⟨s', h1, ?_, ?_⟩
  · intro h
    unfold create
    rw [h1]
    simp only
    rcases h with h | h
    · have : env.order s'.rows = [] := by
        have := hq.perm s'.rows
        rw [h] at this
        rw [h]
        exact this.eq_nil
      rw [this, h]
      exact ⟨rfl, RowsOk.nil _ _⟩
    · refine ⟨?_, hr'.node h⟩
      cases ho : (env.order s'.rows).head? with
      | none => rfl
      | some far =>
        simp only
        rw [if_neg]
        have hf : far ∈ s'.rows := (hq.perm s'.rows).mem_iff.mp (List.mem_of_head? ho)
        have := ((hr'.node h).row far hf).2.1
        rw [distance]
        simpa using this
  · intro h
    rw [not_or] at h
    unfold create
    rw [h1]
    simp only
    cases ho : (env.order s'.rows).head? with
    | none =>
      rw [List.head?_eq_none_iff] at ho
      have := hq.perm s'.rows
      rw [ho] at this
      exact absurd this.nil_eq.symm h.1
    | some far =>
      simp only
      rw [if_pos]
      have hf : far ∈ s'.rows := (hq.perm s'.rows).mem_iff.mp (List.mem_of_head? ho)
      rw [(hr'.row far hf).2.1]
      exact fun e => h.2 (dist32_node e)

theorem attemptRows_spec (env : Env) (cfg : Config) (hq : Sql env) (sps : List Speed) (rows : List Row) :
    ∃ removed, Split rows (attemptRows env cfg sps rows) removed := by
  obtain ⟨s', rem, h1, h2, -⟩ := openRows_spec env cfg hq sps rows
  unfold attemptRows
  rw [h1]
  exact ⟨rem, h2⟩

theorem attempts_spec (env : Env) (hq : Sql env) : ∀ (tries : List (Config × List Speed)) (rows : List Row),
    ∃ removed, Split rows (attempts env tries rows) removed
  | [], rows => ⟨[], Split.refl _⟩
  | a :: tries, rows => by
    obtain ⟨r1, h1⟩ := attemptRows_spec env a.1 hq a.2 rows
    obtain ⟨r2, h2⟩ := attempts_spec env hq tries (attemptRows env a.1 a.2 rows)
    exact ⟨r1 ++ r2, h1.trans h2⟩

theorem RowsOk.split {env : Env} {n : Id} {a b c : List Row} (h : RowsOk env n a) (hs : Split a b c) :
    RowsOk env n b := (h.perm hs.perm.symm).sublist (List.sublist_append_left _ _)

theorem Split.sub {a b c : List Row} (hs : Split a b c) : ∀ r ∈ b, r ∈ a :=
  fun _ hr => hs.perm.mem_iff.mp (List.mem_append_left _ hr)

/-! ## Deletion -/

/-- The rows are the row found and the others. -/
theorem filter_perm {rows : List Row} {id : Id} {r : Row} (hu : rows.Pairwise fun a b => a.id ≠ b.id)
    (hf : rows.find? (fun r => r.id == id) = some r) : (r :: rows.filter (fun x => x.id != id)).Perm rows := by
  have hm := List.mem_of_find?_eq_some hf
  have hid : r.id = id := by simpa using List.find?_some hf
  clear hf
  induction rows with
  | nil => cases hm
  | cons a l ih =>
    obtain ⟨h1, h2⟩ := List.pairwise_cons.mp hu
    rcases List.mem_cons.mp hm with h | h
    · subst h
      rw [List.filter_cons, if_neg (by simp [hid])]
      have : l.filter (fun x => x.id != id) = l := by
        rw [List.filter_eq_self]
        intro x hx
        have := h1 x hx
        rw [hid] at this
        simpa using fun e => this e.symm
      rw [this]
    · have hne : a.id ≠ id := by rw [← hid]; exact h1 r h
      rw [List.filter_cons, if_pos (by simpa using hne)]
      exact (List.Perm.swap a r _).trans ((ih h2 h).cons a)

theorem delete_spec (env : Env) (cfg : Config) (s : Store) (more : List Nat) (id : Id)
    (hr : RowsOk env cfg.node s.rows) (ht : Tracked s more) :
    ∃ s', delete s id = .ok s' ∧ s'.rows = s.rows.filter (fun r => r.id != id) ∧ Tracked s' more ∧
      s'.radius = s.radius ∧ s'.maxPrune = s.maxPrune ∧ s'.count ≤ s.count ∧ s'.total ≤ s.total := by
  unfold delete
  cases hf : s.rows.find? (fun r => r.id == id) with
  | none =>
    refine ⟨s, rfl, ?_, ht, rfl, rfl, Nat.le_refl _, Nat.le_refl _⟩
    rw [List.find?_eq_none] at hf
    symm
    rw [List.filter_eq_self]
    intro r h
    have := hf r h
    simp only [beq_iff_eq] at this
    simpa using this
  | some r =>
    have hp := filter_perm hr.unique hf
    have hl := hp.length_eq
    have hz := sizes_perm hp
    rw [List.length_cons] at hl
    have hz' : sizes (r :: s.rows.filter (fun x => x.id != id)) = r.size + sizes (s.rows.filter (fun x => x.id != id)) := by
      simp [sizes]
    obtain ⟨t1, t2⟩ := ht
    simp only
    rw [if_neg (by omega)]
    refine ⟨_, rfl, rfl, ⟨?_, ?_⟩, rfl, rfl, ?_, ?_⟩
    · show s.count - 1 = (s.rows.filter fun x => x.id != id).length + more.length
      omega
    · show s.total - r.size = sizes (s.rows.filter fun x => x.id != id) + more.sum
      omega
    · show s.count - 1 ≤ _
      omega
    · show s.total - r.size ≤ _
      omega

theorem lookup_filter (rows : List Row) (id id' : Id) :
    lookup (rows.filter fun r => r.id != id) id' = if id' = id then none else lookup rows id' := by
  unfold lookup
  rw [List.find?_filter]
  split
  · next h =>
    subst h
    rw [List.find?_eq_none.mpr]
    · rfl
    · intro r _
      simp
  · next h =>
    congr 2
    funext r
    by_cases he : r.id = id'
    · simp [he, h]
    · simp [he]

/-! ## Histories -/

/-- What every reachable store satisfies. -/
structure Inv (env : Env) (st : Config × Store) : Prop where
  rows : RowsOk env st.1.node st.2.rows
  tracked : ∃ more, Tracked st.2 more
  maxPrune : 0 < st.2.maxPrune
  capacity : env.arith.Sound → st.2.shouldPrune st.1 = false

theorem killed_spec (env : Env) (cfg : Config) (hq : Sql env) (sps : List Speed) (s : Store) (key value : Bytes)
    (turns : Option Nat) (hi : Inv env (cfg, s)) :
    killed env cfg sps s key value turns = s.rows ∨
      ∃ removed, Split (insertRow s.rows (newRow env cfg key value)) (killed env cfg sps s key value turns) removed := by
  cases turns with
  | none => exact Or.inl rfl
  | some k =>
    simp only [killed]
    split
    · exact Or.inl rfl
    · obtain ⟨more, ht⟩ := hi.tracked
      exact Or.inr (killedTurns_subset env cfg hq k sps _ _ (tracked_inserted env cfg s more key value ht))

theorem killed_ok (env : Env) (cfg : Config) (hq : Sql env) (sps : List Speed) (s : Store) (key value : Bytes)
    (turns : Option Nat) (hi : Inv env (cfg, s)) :
    RowsOk env cfg.node (killed env cfg sps s key value turns) := by
  rcases killed_spec env cfg hq sps s key value turns hi with h | ⟨rem, h⟩
  · rw [h]; exact hi.rows
  · exact (hi.rows.insertRow key value).split h

theorem shouldPrune_false_of (env : Env) (cfg : Config) (ha : env.arith.Sound) (s : Store) (more : List Nat)
    (ht : Tracked s more) (hm : 0 < s.maxPrune) (h : s.shouldPrune cfg = true → pruningCount env cfg s = 0) :
    s.shouldPrune cfg = false := by
  cases hs : s.shouldPrune cfg with
  | false => rfl
  | true =>
    have := pruningCount_pos env cfg ha s more ht hm hs
    have := h hs
    omega

theorem create_inv (env : Env) (cfg : Config) (hq : Sql env) (sps : List Speed) (rows : List Row) (n : Id)
    (hr : RowsOk env n rows) (s : Store) (h : create env cfg sps rows = .ok s) : Inv env (cfg, s) := by
  obtain ⟨s', h1, h2, h3⟩ := create_spec env cfg hq sps rows n hr
  obtain ⟨s'', rem, g1, g2, g3, g4, g5, g6, g7⟩ := openRows_spec env cfg hq sps rows
  rw [g1] at h1
  injection h1 with h1
  subst h1
  by_cases hc : s''.rows = [] ∨ n.toNat / 2 ^ 224 = cfg.node.toNat / 2 ^ 224
  · obtain ⟨e1, e2⟩ := h2 hc
    rw [e1] at h
    injection h with h
    subst h
    exact ⟨e2, ⟨[], g3⟩, g4, fun ha => shouldPrune_false_of env cfg ha _ _ g3 g4 g6⟩
  · rw [h3 hc] at h
    cases h

theorem step_inv (env : Env) (hq : Sql env) (st st' : Config × Store) (op : Op) (hi : Inv env st)
    (h : step env st op = .ok st') : Inv env st' := by
  obtain ⟨cfg, s⟩ := st
  obtain ⟨more, ht⟩ := hi.tracked
  cases op with
  | insert sps key value =>
    simp only [step] at h
    by_cases hd : s.radius < distance cfg (env.idOf key)
    · rw [insert_refused env cfg sps s key value hd] at h
      injection h with h
      subst h
      exact hi
    · obtain ⟨s', rem, rep, more', h1, h2, h3, h4, h5, h6⟩ :=
        insert_spec env cfg hq sps s more key value ht (by omega)
      rw [h1] at h
      injection h with h
      subst h
      refine ⟨(hi.rows.insertRow key value).split h2, ⟨more', h3⟩, h5 hi.maxPrune, fun ha => ?_⟩
      apply shouldPrune_false_of env cfg ha _ _ h3 (h5 hi.maxPrune)
      intro hs
      rcases h6 with ⟨g1, g2, -⟩ | ⟨-, g⟩
      · rw [g2, g1] at hs; cases hs
      · rcases g with ⟨g, -⟩ | ⟨-, g, -⟩
        · rw [g] at hs; cases hs
        · exact g
  | delete id =>
    simp only [step] at h
    obtain ⟨s', h1, h2, h3, h4, h5, h6, h7⟩ := delete_spec env cfg s more id hi.rows ht
    rw [h1] at h
    injection h with h
    subst h
    refine ⟨?_, ⟨more, h3⟩, ?_, fun ha => ?_⟩
    · show RowsOk env cfg.node s'.rows
      rw [h2]; exact hi.rows.sublist List.filter_sublist
    · show 0 < s'.maxPrune
      rw [h5]; exact hi.maxPrune
    · have h8 := of_decide_eq_false (hi.capacity ha)
      have h9 := Nat.mul_le_mul_right cfg.extra h6
      apply decide_eq_false
      simp only [Store.usage] at h8 ⊢
      omega
  | restart tries cfg' sps =>
    simp only [step] at h
    split at h
    · next s' hc =>
      injection h with h
      subst h
      obtain ⟨rem, hs⟩ := attempts_spec env hq tries s.rows
      exact create_inv env cfg' hq sps _ _ (hi.rows.split hs) s' hc
    · cases h
  | kill sps key value turns tries cfg' sps' =>
    simp only [step] at h
    split at h
    · next s' hc =>
      injection h with h
      subst h
      obtain ⟨rem, hs⟩ := attempts_spec env hq tries (killed env cfg sps s key value turns)
      exact create_inv env cfg' hq sps' _ _ ((killed_ok env cfg hq sps s key value turns hi).split hs) s' hc
    · cases h

theorem run_inv (env : Env) (hq : Sql env) : ∀ (ops : List Op) (st st' : Config × Store), Inv env st →
    run env st ops = .ok st' → Inv env st'
  | [], st, st', hi, h => by
    simp only [run] at h
    injection h with h
    subst h
    exact hi
  | op :: ops, st, st', hi, h => by
    simp only [run] at h
    split at h
    · next st1 h1 => exact run_inv env hq ops st1 st' (step_inv env hq st st1 op hi h1) h
    · cases h

theorem run_append (env : Env) : ∀ (a b : List Op) (st st' : Config × Store),
    run env st (a ++ b) = .ok st' ↔ ∃ st1, run env st a = .ok st1 ∧ run env st1 b = .ok st'
  | [], b, st, st' => by simp [run]
  | op :: a, b, st, st' => by
    simp only [List.cons_append, run]
    cases h : step env st op with
    | error e => simp
    | ok st1 => simp only; exact run_append env a b st1 st'

theorem create_tracked (env : Env) (hq : Sql env) (cfg : Config) (sps : List Speed) (rows : List Row) (n : Id)
    (s : Store) (hok : RowsOk env n rows) (h : create env cfg sps rows = .ok s) : Tracked s [] := by
  obtain ⟨s', h1, h2, h3⟩ := create_spec env cfg hq sps rows n hok
  obtain ⟨s'', rem, g1, g2, g3, -⟩ := openRows_spec env cfg hq sps rows
  rw [g1] at h1
  injection h1 with h1
  subst h1
  by_cases hcs : s''.rows = [] ∨ n.toNat / 2 ^ 224 = cfg.node.toNat / 2 ^ 224
  · rw [(h2 hcs).1] at h; injection h with h; subst h; exact g3
  · rw [h3 hcs] at h; cases h

theorem step_exact (env : Env) (hq : Sql env) (st st' : Config × Store) (op : Op) (hi : Inv env st)
    (ht : Tracked st.2 []) (h : step env st op = .ok st')
    (hno : ∀ sps k v, op = .insert sps k v → hasContent st.2 (env.idOf k) = false) : Tracked st'.2 [] := by
  obtain ⟨cfg, s⟩ := st
  cases op with
  | insert sps key value =>
    simp only [step] at h
    by_cases hd : s.radius < distance cfg (env.idOf key)
    · rw [insert_refused env cfg sps s key value hd] at h
      injection h with h
      subst h
      exact ht
    · obtain ⟨s', rem, rep, more', h1, h2, h3, h4, -⟩ := insert_spec env cfg hq sps s [] key value ht (by omega)
      rw [h1] at h
      injection h with h
      subst h
      rw [hno sps key value rfl] at h4
      rcases h4 with ⟨g, -⟩ | ⟨g, -⟩
      · rw [if_neg (by simp)] at g
        rw [g] at h3; exact h3
      · rw [g] at h3; exact h3
  | delete id =>
    simp only [step] at h
    obtain ⟨s', h1, h2, h3, -⟩ := delete_spec env cfg s [] id hi.rows ht
    rw [h1] at h
    injection h with h
    subst h
    exact h3
  | restart tries cfg' sps =>
    simp only [step] at h
    split at h
    · next s' hc =>
      injection h with h
      subst h
      obtain ⟨rem, hs⟩ := attempts_spec env hq tries s.rows
      exact create_tracked env hq cfg' sps _ _ s' (hi.rows.split hs) hc
    · cases h
  | kill sps key value turns tries cfg' sps' =>
    simp only [step] at h
    split at h
    · next s' hc =>
      injection h with h
      subst h
      obtain ⟨rem, hs⟩ := attempts_spec env hq tries (killed env cfg sps s key value turns)
      exact create_tracked env hq cfg' sps' _ _ s' ((killed_ok env cfg hq sps s key value turns hi).split hs) hc
    · cases h

theorem run_exact (env : Env) (hq : Sql env) : ∀ (ops : List Op) (st st' : Config × Store), Inv env st →
    Tracked st.2 [] → run env st ops = .ok st' →
    (∀ pre sps k v post st1, ops = pre ++ .insert sps k v :: post → run env st pre = .ok st1 →
      hasContent st1.2 (env.idOf k) = false) → Tracked st'.2 []
  | [], st, st', _, ht, h, _ => by
    simp only [run] at h
    injection h with h
    subst h
    exact ht
  | op :: ops, st, st', hi, ht, h, hno => by
    simp only [run] at h
    split at h
    · next st1 h1 =>
      refine run_exact env hq ops st1 st' (step_inv env hq st st1 op hi h1)
        (step_exact env hq st st1 op hi ht h1 fun sps k v e => hno [] sps k v ops st (by rw [e]; rfl) rfl) h ?_
      intro pre sps k v post st2 e hr
      refine hno (op :: pre) sps k v post st2 (by rw [e]; rfl) ?_
      simp only [run, h1]
      exact hr
    · cases h

theorem mem_le_sum : ∀ (l : List Nat) (x : Nat), x ∈ l → x ≤ l.sum
  | a :: l, x, h => by
    rw [List.sum_cons]
    rcases List.mem_cons.mp h with rfl | h
    · omega
    · have := mem_le_sum l x h; omega

/-! ## The ephemeral store -/

/-- The rows of an ephemeral store. -/
structure EphOk (idOf : Bytes → Id) (s : Store) : Prop where
  unique : s.rows.Pairwise fun a b => a.id ≠ b.id
  row : ∀ r ∈ s.rows, r.id = idOf r.key ∧ r.size = contentSize r.key r.value
  tracked : ∃ more, Tracked s more

/-- The rows without the column that is not there. -/
theorem tracked_ephInsert (idOf : Bytes → Id) (s : Store) (more : List Nat) (key value : Bytes)
    (h : Tracked s more) :
    Tracked (ephInsert idOf s key value)
      (if hasContent s (idOf key) then contentSize key value :: more else more) := by
  have hiff : (s.rows.any fun x => x.id == idOf key) = hasContent s (idOf key) := by
    unfold hasContent
    cases hl : lookup s.rows (idOf key) with
    | none =>
      rw [lookup_none] at hl
      simp only [Option.isSome_none, List.any_eq_false, beq_iff_eq]
      exact hl
    | some kv =>
      simp only [Option.isSome_some, List.any_eq_true, beq_iff_eq]
      simp only [lookup, Option.map_eq_some_iff] at hl
      obtain ⟨r, hr, -⟩ := hl
      exact ⟨r, List.mem_of_find?_eq_some hr, by simpa using List.find?_some hr⟩
  obtain ⟨h1, h2⟩ := h
  unfold Tracked ephInsert insertRow
  simp only [hiff]
  cases hasContent s (idOf key) with
  | true =>
    rw [if_pos rfl, if_pos rfl, List.length_cons, List.sum_cons]
    omega
  | false =>
    rw [if_neg (by simp), if_neg (by simp), List.length_append, sizes_append, List.length_singleton]
    have : ∀ d, sizes [({ id := idOf key, key, value, dist := d, size := contentSize key value } : Row)] =
        contentSize key value := by
      intro d; simp [sizes]
    rw [this]
    omega

theorem delete_eph (s : Store) (more : List Nat) (id : Id) (hu : s.rows.Pairwise fun a b => a.id ≠ b.id)
    (ht : Tracked s more) :
    ∃ s', delete s id = .ok s' ∧ s'.rows = s.rows.filter (fun r => r.id != id) ∧ Tracked s' more := by
  -- `delete_spec` needs no more of the rows than that the ids are different
  unfold delete
  cases hf : s.rows.find? (fun r => r.id == id) with
  | none =>
    refine ⟨s, rfl, ?_, ht⟩
    rw [List.find?_eq_none] at hf
    symm
    rw [List.filter_eq_self]
    intro r h
    have := hf r h
    simp only [beq_iff_eq] at this
    simpa using this
  | some r =>
    have hp := filter_perm hu hf
    have hl := hp.length_eq
    have hz := sizes_perm hp
    rw [List.length_cons] at hl
    have hz' : sizes (r :: s.rows.filter (fun x => x.id != id)) = r.size + sizes (s.rows.filter (fun x => x.id != id)) := by
      simp [sizes]
    obtain ⟨t1, t2⟩ := ht
    simp only
    rw [if_neg (by omega)]
    refine ⟨_, rfl, rfl, ⟨?_, ?_⟩⟩
    · show s.count - 1 = (s.rows.filter fun x => x.id != id).length + more.length
      omega
    · show s.total - r.size = sizes (s.rows.filter fun x => x.id != id) + more.sum
      omega

theorem ephStep_ok (idOf : Bytes → Id) (s : Store) (op : EphOp) (h : EphOk idOf s) :
    ∃ s', ephStep idOf s op = .ok s' ∧ EphOk idOf s' := by
  obtain ⟨more, ht⟩ := h.tracked
  cases op with
  | insert key value =>
    refine ⟨_, rfl, ?_, ?_, ⟨_, tracked_ephInsert idOf s more key value ht⟩⟩
    · unfold ephInsert insertRow
      simp only
      split
      · exact h.unique
      · next hn =>
        rw [List.pairwise_append]
        refine ⟨h.unique, by simp, ?_⟩
        intro a ha b hb
        rw [List.mem_singleton] at hb
        subst hb
        intro he
        apply hn
        rw [List.any_eq_true]
        exact ⟨a, ha, by simpa using he⟩
    · unfold ephInsert insertRow
      simp only
      split
      · exact h.row
      · intro r hr
        rcases List.mem_append.mp hr with hr | hr
        · exact h.row r hr
        · rw [List.mem_singleton] at hr
          subst hr
          exact ⟨rfl, rfl⟩
  | delete id =>
    obtain ⟨s', h1, h2, h3⟩ := delete_eph s more id h.unique ht
    refine ⟨s', h1, ?_, ?_, ⟨more, h3⟩⟩
    · rw [h2]; exact h.unique.sublist List.filter_sublist
    · rw [h2]; exact fun r hr => h.row r (List.mem_filter.mp hr).1
  | restart =>
    exact ⟨_, rfl, h.unique, h.row, ⟨[], by simp [Tracked, ephCreate, Store.initUsage]⟩⟩

end Verif.Store
