import Verif.Lemmas.EvmDb
import Verif.Props.StateDiffSpec

namespace Verif.EvmDb
open Verif.Trie

attribute [local irreducible] Id.bytes addressBytes numberBytes

variable {lib : Lib}

/-- Storage nodes of `db` are those of `db₀` or in the cache. -/
structure Cached (db₀ db : Db) : Prop where
  on : db.cacheChanges = true
  nodes : ∀ (x n : Id) v, db.kv (x.bytes ++ n.bytes) = some v → db₀.kv (x.bytes ++ n.bytes) = some v ∨ n ∈ db.storageCache x

theorem long_length (x n : Id) : (x.bytes ++ n.bytes).length ≠ 32 := by
  rw [List.length_append, Id.bytes_length, Id.bytes_length]; omega

/-- A step that writes no storage nodes and keeps the cache. -/
theorem Cached.frame {db₀ db db' : Db} (h : Cached db₀ db) (hc : db'.cacheChanges = db.cacheChanges)
    (hs : db'.storageCache = db.storageCache)
    (hk : ∀ (x n : Id) v, db'.kv (x.bytes ++ n.bytes) = some v → db.kv (x.bytes ++ n.bytes) = some v) : Cached db₀ db' :=
  ⟨hc.trans h.on, fun x n v hv => by rw [hs]; exact h.nodes x n v (hk x n v hv)⟩

theorem put_frame (kv : Kv) (a : Id) (v : Bytes) (x n : Id) (w : Bytes) (h : kv.put a.bytes v (x.bytes ++ n.bytes) = some w) :
    kv (x.bytes ++ n.bytes) = some w := by
  rw [put_long kv a v _ (long_length x n)] at h; exact h

theorem delete_frame (kv : Kv) (a : Id) (x n : Id) (w : Bytes) (h : kv.delete a.bytes (x.bytes ++ n.bytes) = some w) :
    kv (x.bytes ++ n.bytes) = some w := by
  rw [delete_long kv a _ (long_length x n)] at h; exact h

theorem delete_any (kv : Kv) (k k' : Bytes) (w : Bytes) (h : kv.delete k k' = some w) : kv k' = some w := by
  unfold Kv.delete at h
  split at h
  · cases h
  · exact h

theorem remove_any (a : Id) : ∀ (l : List Id) (kv : Kv) (k w : Bytes), l.foldl (removeNode lib a) kv k = some w → kv k = some w
  | [], _, _, _, h => h
  | e :: l, kv, k, w, h => by
    have := remove_any a l (removeNode lib a kv e) k w h
    unfold removeNode at this
    split at this
    · exact this
    · exact delete_any _ _ _ _ this

theorem append_inj' {a b x n : Id} (h : x.bytes ++ n.bytes = a.bytes ++ b.bytes) : x = a ∧ n = b := by
  have := List.append_inj h (by rw [Id.bytes_length, Id.bytes_length])
  exact ⟨Id.bytes_injective this.1, Id.bytes_injective this.2⟩

theorem insert_any (a : Id) : ∀ (l : List (Id × Bytes)) (kv : Kv) (x n : Id) (w : Bytes),
    l.foldl (insertNode lib a) kv (x.bytes ++ n.bytes) = some w →
      kv (x.bytes ++ n.bytes) = some w ∨ (x = a ∧ n ∈ l.map (·.1))
  | [], _, _, _, _, h => .inl h
  | e :: l, kv, x, n, w, h => by
    rcases insert_any a l (insertNode lib a kv e) x n w h with h | ⟨h1, h2⟩
    · unfold insertNode at h
      split at h
      · exact .inl h
      · unfold Kv.put at h
        split at h
        · next hk =>
          obtain ⟨rfl, rfl⟩ := append_inj' hk
          exact .inr ⟨rfl, by simp⟩
        · exact .inl h
    · exact .inr ⟨h1, by simp only [List.map_cons, List.mem_cons]; exact .inr h2⟩

theorem Cached.putAccount {db₀ db : Db} (h : Cached db₀ db) (a : Id) (x : Account) : Cached db₀ (db.putAccount lib a x) :=
  h.frame rfl rfl fun _ _ _ hv => put_frame _ _ _ _ _ _ hv

theorem Cached.commitAccount {db₀ db db' : Db} (h : Cached db₀ db) {a : Id} {i : Info}
    (e : EvmDb.commitAccount lib db a i = some db') : Cached db₀ db' := by
  unfold EvmDb.commitAccount at e
  split at e
  · cases e
  · cases e; exact h.putAccount _ _
  · cases e; exact h.putAccount _ _

theorem Cached.wipeTrie {db₀ db : Db} (h : Cached db₀ db) {a : Id} {x : Account} {r : Db × Account}
    (e : EvmDb.wipeTrie lib db a x = some r) : Cached db₀ r.1 := by
  unfold EvmDb.wipeTrie at e
  split at e
  · cases e; exact h
  · cases hc : lib.clear (nodesOf lib db.kv a) x.storageRoot with
    | none => rw [hc] at e; cases e
    | some removed =>
      rw [hc] at e
      cases e
      exact h.frame rfl rfl fun _ _ _ hv => remove_any a removed db.kv _ _ hv

theorem Cached.wipe {db₀ db db' : Db} (h : Cached db₀ db) {a : Id} {d : Bool}
    (e : wipeAccountStorage lib db a d = some db') : Cached db₀ db' := by
  unfold wipeAccountStorage at e
  split at e
  · cases e
  · cases e; exact h
  · split at e
    · cases e
    · next hw =>
      have hw := h.wipeTrie hw
      split at e
      · cases e
        exact hw.frame rfl rfl fun _ _ _ hv => delete_frame _ _ _ _ _ hv
      · cases e
        exact hw.putAccount _ _

theorem Cached.storageChanges {db₀ db db' : Db} (h : Cached db₀ db) {a : Id} {slots : List (Word × Word)}
    (e : commitStorageChanges lib db a slots = some db') : Cached db₀ db' := by
  unfold commitStorageChanges at e
  split at e
  · cases e
  · simp only at e
    split at e
    · cases e
    · next delta _ =>
      rw [if_pos h.on] at e
      cases e
      refine Cached.putAccount ?_ _ _
      refine ⟨h.on, fun x n v hv => ?_⟩
      have hv := remove_any a _ _ _ _ hv
      show _ ∨ n ∈ (if x = a then db.storageCache x ++ delta.inserted.map (·.1) else db.storageCache x)
      rcases insert_any a delta.inserted db.kv x n v hv with hv | ⟨rfl, hm⟩
      · rcases h.nodes x n v hv with h | h
        · exact .inl h
        · right
          split
          · exact List.mem_append.mpr (.inl h)
          · exact h
      · right
        rw [if_pos rfl]
        exact List.mem_append.mpr (.inr hm)

theorem foldlM_cached {α : Type} {db₀ : Db} {f : Db → α → Option Db}
    (hf : ∀ db e db', Cached db₀ db → f db e = some db' → Cached db₀ db') :
    ∀ (l : List α) (db db' : Db), Cached db₀ db → l.foldlM f db = some db' → Cached db₀ db'
  | [], _, _, h, e => by cases e; exact h
  | x :: l, db, db', h, e => by
    rw [List.foldlM_cons] at e
    cases hx : f db x with
    | none => rw [hx] at e; cases e
    | some db1 =>
      rw [hx] at e
      exact foldlM_cached hf l db1 db' (hf db x db1 h hx) e

theorem foldl_cached {α : Type} {db₀ : Db} {f : Db → α → Db} (hf : ∀ db e, Cached db₀ db → Cached db₀ (f db e)) :
    ∀ (l : List α) (db : Db), Cached db₀ db → Cached db₀ (l.foldl f db)
  | [], _, h => h
  | x :: l, db, h => foldl_cached hf l (f db x) (hf db x h)

theorem Cached.commitBundle {db₀ db db' : Db} (h : Cached db₀ db) {b : Bundle}
    (e : EvmDb.commitBundle lib db b = some db') : Cached db₀ db' := by
  unfold EvmDb.commitBundle at e
  split at e
  · cases e
  · next db1 h1 =>
    have hc1 : Cached db₀ db1 := foldlM_cached (fun db e db' hd he => by
      unfold commitAccountEntry at he
      split at he
      · exact hd.commitAccount he
      · exact hd.wipe he) _ _ _ h h1
    have hc2 : Cached db₀ (b.contracts.foldl commitContract db1) := foldl_cached (fun db e hd =>
      hd.frame (db' := commitContract db e) rfl rfl fun _ _ _ hv => put_frame _ _ _ _ _ _ hv) _ _ hc1
    refine foldlM_cached (fun db c db' hd he => ?_) _ _ _ hc2 e
    unfold commitStorageEntry at he
    split at he
    · cases he
    · next db2 h2 =>
      have hd2 : Cached db₀ db2 := by
        split at h2
        · exact hd.wipe h2
        · cases h2; exact hd
      split at he
      · cases he; exact hd2
      · exact hd2.storageChanges he

theorem Cached.step {db₀ db db' : Db} (h : Cached db₀ db) {op : Op} (hop : op ≠ .clearCache)
    (e : EvmDb.step lib db op = some db') : Cached db₀ db' := by
  cases op with
  | genesis alloc =>
    cases e
    exact foldl_cached (fun db e hd => hd.putAccount _ _) _ _ h
  | bundle b => exact h.commitBundle e
  | trie nodes =>
    cases e
    refine h.frame rfl rfl ?_
    have : ∀ (l : List Bytes) (kv : Kv) (x n : Id) (v : Bytes),
        l.foldl (fun kv n => kv.put (lib.K n).bytes n) kv (x.bytes ++ n.bytes) = some v → kv (x.bytes ++ n.bytes) = some v := by
      intro l
      induction l with
      | nil => intro kv x n v h; exact h
      | cons b l ih => intro kv x n v h; exact put_frame _ _ _ _ _ _ (ih _ x n v h)
    exact fun x n v hv => this nodes db.kv x n v hv
  | block n hash =>
    cases e
    refine h.frame rfl rfl fun x m v hv => ?_
    simp only [manageBlockHash] at hv
    split at hv
    · exact put_frame _ _ _ _ _ _ (delete_frame _ _ _ _ _ hv)
    · exact put_frame _ _ _ _ _ _ hv
  | clearCache => exact absurd rfl hop

theorem run_cached : ∀ (ops : List Op) (db₀ db db' : Db), Cached db₀ db → KeepsCache ops →
    ops.foldlM (EvmDb.step lib) db = some db' → Cached db₀ db'
  | [], _, _, _, h, _, e => by cases e; exact h
  | op :: ops, db₀, db, db', h, hk, e => by
    rw [List.foldlM_cons] at e
    cases hx : EvmDb.step lib db op with
    | none => rw [hx] at e; cases e
    | some db1 =>
      rw [hx] at e
      exact run_cached ops db₀ db1 db' (h.step (hk op (by simp)) hx) (fun o ho => hk o (by simp [ho])) e

/-! ## New codes -/

/-- The codes of `db`: those of before, and the committed ones. -/
structure Coded (db₀ db : Db) (codes : List (Id × Bytes)) : Prop where
  on : db.cacheChanges = true
  has : ∀ c ∈ codes, db.newContracts c.1 ≠ none
  sound : ∀ h c, db.newContracts h = some c → db₀.newContracts h = some c ∨ (h, c) ∈ codes

theorem Coded.frame {db₀ db db' : Db} {codes : List (Id × Bytes)} (h : Coded db₀ db codes) (hc : db'.cacheChanges = db.cacheChanges)
    (hn : db'.newContracts = db.newContracts) : Coded db₀ db' codes :=
  ⟨hc.trans h.on, fun c hm => by rw [hn]; exact h.has c hm, fun x c e => by rw [hn] at e; exact h.sound x c e⟩

/-- Steps that leave the flag and the codes. -/
def Same (db db' : Db) : Prop := db'.cacheChanges = db.cacheChanges ∧ db'.newContracts = db.newContracts

theorem Same.refl (db : Db) : Same db db := ⟨rfl, rfl⟩

theorem Same.trans {a b c : Db} (h₁ : Same a b) (h₂ : Same b c) : Same a c := ⟨h₂.1.trans h₁.1, h₂.2.trans h₁.2⟩

theorem foldlM_same {α : Type} {f : Db → α → Option Db} (hf : ∀ db e db', f db e = some db' → Same db db') :
    ∀ (l : List α) (db db' : Db), l.foldlM f db = some db' → Same db db'
  | [], _, _, e => by cases e; exact .refl _
  | x :: l, db, db', e => by
    rw [List.foldlM_cons] at e
    cases hx : f db x with
    | none => rw [hx] at e; cases e
    | some db1 =>
      rw [hx] at e
      exact (hf db x db1 hx).trans (foldlM_same hf l db1 db' e)

theorem wipe_same {db db' : Db} {a : Id} {d : Bool} (e : wipeAccountStorage lib db a d = some db') : Same db db' := by
  unfold wipeAccountStorage at e
  split at e
  · cases e
  · cases e; exact .refl _
  · split at e
    · cases e
    · next hw =>
      unfold EvmDb.wipeTrie at hw
      split at hw
      · cases hw
        split at e <;> cases e <;> exact ⟨rfl, rfl⟩
      · simp only [Option.map_eq_some_iff] at hw
        obtain ⟨removed, _, hw⟩ := hw
        cases hw
        split at e <;> cases e <;> exact ⟨rfl, rfl⟩

theorem accountEntry_same (db : Db) (x : Address × Option Info) (db' : Db) (e : commitAccountEntry lib db x = some db') :
    Same db db' := by
  unfold commitAccountEntry at e
  split at e
  · unfold EvmDb.commitAccount at e
    split at e <;> cases e <;> exact ⟨rfl, rfl⟩
  · exact wipe_same e

theorem storageEntry_same (db : Db) (c : Changeset) (db' : Db) (e : commitStorageEntry lib db c = some db') : Same db db' := by
  unfold commitStorageEntry at e
  split at e
  · cases e
  · next db2 h2 =>
    have hd2 : Same db db2 := by
      split at h2
      · exact wipe_same h2
      · cases h2; exact .refl _
    split at e
    · cases e; exact hd2
    · refine hd2.trans ?_
      unfold commitStorageChanges at e
      split at e
      · cases e
      · simp only at e
        split at e <;> cases e
        exact ⟨rfl, rfl⟩

theorem contracts_coded {db₀ : Db} : ∀ (cs : List (Id × Bytes)) (db : Db) (codes : List (Id × Bytes)), Coded db₀ db codes →
    Coded db₀ (cs.foldl commitContract db) (codes ++ cs)
  | [], db, codes, h => by simpa using h
  | c :: cs, db, codes, h => by
    have : codes ++ c :: cs = (codes ++ [c]) ++ cs := by simp
    rw [this]
    refine contracts_coded cs _ _ ⟨h.on, fun d hd => ?_, fun x d e => ?_⟩
    · simp only [commitContract, h.on, if_true]
      split
      · simp
      · next hne =>
        rcases List.mem_append.mp hd with hd | hd
        · exact h.has d hd
        · simp only [List.mem_singleton] at hd
          subst hd
          exact absurd rfl hne
    · simp only [commitContract, h.on, if_true] at e
      split at e
      · next hx =>
        cases e
        subst hx
        exact .inr (by simp)
      · rcases h.sound x d e with h | h
        · exact .inl h
        · exact .inr (List.mem_append.mpr (.inl h))

theorem bundle_coded {db₀ db db' : Db} {codes : List (Id × Bytes)} (h : Coded db₀ db codes) {b : Bundle}
    (e : EvmDb.commitBundle lib db b = some db') : Coded db₀ db' (codes ++ b.contracts) := by
  unfold EvmDb.commitBundle at e
  split at e
  · cases e
  · next db1 h1 =>
    have s1 := foldlM_same accountEntry_same _ _ _ h1
    have s2 := foldlM_same storageEntry_same _ _ _ e
    exact (contracts_coded b.contracts db1 codes (h.frame s1.1 s1.2)).frame s2.1 s2.2

theorem genesis_same (alloc : List (Address × Word)) : ∀ (db : Db), Same db (genesis lib db alloc) := by
  induction alloc with
  | nil => intro db; exact .refl _
  | cons e l ih => intro db; exact Same.trans ⟨rfl, rfl⟩ (ih _)

theorem run_coded : ∀ (ops : List Op) (db₀ db db' : Db) (codes : List (Id × Bytes)), Coded db₀ db codes → KeepsCache ops →
    ops.foldlM (EvmDb.step lib) db = some db' → Coded db₀ db' (codes ++ codesOf ops)
  | [], _, _, _, codes, h, _, e => by cases e; simpa [codesOf] using h
  | op :: ops, db₀, db, db', codes, h, hk, e => by
    rw [List.foldlM_cons] at e
    cases hx : EvmDb.step lib db op with
    | none => rw [hx] at e; cases e
    | some db1 =>
      rw [hx] at e
      have h1 : Coded db₀ db1 (codes ++ codesOf [op]) := by
        cases op with
        | genesis alloc =>
          cases hx
          have := genesis_same (lib := lib) alloc db
          simpa [codesOf] using h.frame this.1 this.2
        | bundle b => simpa [codesOf] using bundle_coded h hx
        | trie nodes =>
          cases hx
          have h2 : Coded db₀ (commitTrie lib db nodes).2 codes := h.frame rfl rfl
          simpa [codesOf] using h2
        | block n hash =>
          cases hx
          have h2 : Coded db₀ (manageBlockHash lib db n hash) codes := h.frame rfl rfl
          simpa [codesOf] using h2
        | clearCache => exact absurd rfl (hk _ (by simp))
      have := run_coded ops db₀ db1 db' _ h1 (fun o ho => hk o (by simp [ho])) e
      have e' : codesOf (op :: ops) = codesOf [op] ++ codesOf ops := by simp [codesOf]
      rw [e', ← List.append_assoc]
      exact this

end Verif.EvmDb
