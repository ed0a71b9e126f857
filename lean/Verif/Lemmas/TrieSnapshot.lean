import Verif.Lemmas.TrieFilter
import Verif.Props.StateContent

namespace Verif.TrieWalker
open Verif.Trie Verif.StateContent Verif.Props

/-! ## Walks from the root -/

theorem available_all {env : Env} {db : Db} {nodes : List Bytes} (h : Has env db nodes) :
    available env db nodes = nodes := by
  unfold available
  rw [List.filter_eq_self]
  intro b hb
  simp [h b hb]

/-- What is known of the proofs of a walk. -/
structure Walk (env : Env) (present nodes : List Bytes) (root : Id) (filter : Option Filter) (out : List Proof) : Prop where
  exact : ∀ p b, (∃ q ∈ out, q.path = p ∧ q.proof.getLast? = some b) ↔ StoredAt env present (.hash root) p b ∧ Admits filter p
  ordered : out.Pairwise fun a b => a.path < b.path
  size : ∀ q ∈ out, q.path.length ≤ 64 ∧ Nibble q.path ∧ q.proof.length ≤ 65 ∧ ∀ x ∈ q.proof, x ∈ nodes
  last : ∀ q ∈ out, ∃ b, q.proof.getLast? = some b
  good : ∀ q ∈ out, Good env root q

theorem rep_hash {env : Env} {nodes : List Bytes} {h : Id} {t : PTrie} (hr : Rep env nodes (.hash h) t) :
    ∃ b n, b ∈ nodes ∧ env.K b = h ∧ env.decode b = some n ∧ Rep env nodes n t := by
  generalize hn : Node.hash h = m at hr
  cases hr with
  | hash b n t hb hd hr => exact ⟨b, n, hb, (Node.hash.inj hn).symm, hd, hr⟩
  | _ => cases hn

theorem nibble_nil : Nibble [] := by intro n hn; cases hn

/-- A walk that starts at the node of the root, or at nothing if that node is missing. -/
theorem root_walk {env : Env} {nodes : List Bytes} {root : Id} {t : PTrie} (hg : Genuine env nodes root t) (w : Walker)
    (hf : Slice w.filter)
    (hdb : ∀ b ∈ nodes, w.db (env.K b) = some (some b) ∨ (w.isPartial = true ∧ w.db (env.K b) = some none))
    (hst : ∀ b, w.db root = some (some b) → w.stack = [⟨[], [b]⟩]) (hst' : w.db root = some none → w.stack = []) :
    ∃ out, Yields env w out ∧ Walk env (available env w.db nodes) nodes root w.filter out := by
  obtain ⟨b, n, hb, hk, hd, _⟩ := rep_hash hg.commits
  obtain ⟨c, out, h1, h2, h3, h4, h5, h6, h7⟩ := walk_root hg w hf hdb
  have ha : w.admits [] = some true := (admits_iff (w := w) hf (by simp) nibble_nil).mpr (admits_nil hf)
  have hc : c.toList = w.stack := by
    unfold child at h1
    rw [ha] at h1
    simp only at h1
    rcases hdb b hb with hr | ⟨hp, hr⟩
    · rw [hk] at hr
      have hfe : w.fetch env root = some (some b) := by
        unfold Walker.fetch
        rw [hr]
        simp only [hd]
        cases hg.stored b hb n hd <;> rfl
      simp only [hfe, Option.map_some, Option.some.injEq] at h1
      rw [← h1, hst b hr]; rfl
    · rw [hk] at hr
      have hfe : w.fetch env root = some none := by
        unfold Walker.fetch
        rw [hr]
        simp [hp]
      simp only [hfe, Option.map_some, Option.map_none, Option.some.injEq] at h1
      rw [← h1, hst' hr]; rfl
  refine ⟨out, ⟨out.length, fun m hm => ?_⟩, ⟨h4, h5, ?_, h6, h7⟩⟩
  · have := Visits.all (w := w) h2 m hm
    rw [hc] at this
    exact this
  · intro q hq
    obtain ⟨g1, g2, g3, g4⟩ := h3 q hq
    exact ⟨g1, g2, by omega, g4⟩

theorem full_walk {env : Env} {nodes : List Bytes} {root : Id} {t : PTrie} (hg : Genuine env nodes root t) {db : Db}
    (hdb : Has env db nodes) {filter : Option Filter} (hf : Slice filter) :
    ∃ w out, Walker.new root db filter = some w ∧ Yields env w out ∧ Walk env nodes nodes root filter out := by
  obtain ⟨b, n, hb, hk, hd, _⟩ := rep_hash hg.commits
  have hroot : db root = some (some b) := by rw [← hk]; exact hdb b hb
  obtain ⟨out, h1, h2⟩ := root_walk hg ⟨false, db, [⟨[], [b]⟩], filter⟩ hf (fun b hb => .inl (hdb b hb))
    (fun b' h => by simp only at h; rw [hroot] at h; cases h; rfl) (fun h => by simp only at h; rw [hroot] at h; cases h)
  simp only at h2
  rw [available_all hdb] at h2
  exact ⟨_, out, by simp [Walker.new, hroot], h1, h2⟩

theorem partial_walk {env : Env} {nodes : List Bytes} {root : Id} {t : PTrie} (hg : Genuine env nodes root t) {db : Db}
    (hdb : Answers env db nodes) :
    ∃ w out, Walker.newPartial root db = some w ∧ Yields env w out ∧
      Walk env (available env db nodes) nodes root none out := by
  obtain ⟨b, n, hb, hk, hd, _⟩ := rep_hash hg.commits
  have hdb' : ∀ b ∈ nodes, db (env.K b) = some (some b) ∨ (true = true ∧ db (env.K b) = some none) := fun b hb => by
    rcases hdb b hb with h | h
    · exact .inl h
    · exact .inr ⟨rfl, h⟩
  rcases hdb b hb with hroot | hroot
  · rw [hk] at hroot
    obtain ⟨out, h1, h2⟩ := root_walk hg ⟨true, db, [⟨[], [b]⟩], none⟩ .none hdb'
      (fun b' h => by simp only at h; rw [hroot] at h; cases h; rfl) (fun h => by simp only at h; rw [hroot] at h; cases h)
    exact ⟨_, out, by simp [Walker.newPartial, hroot], h1, h2⟩
  · rw [hk] at hroot
    obtain ⟨out, h1, h2⟩ := root_walk hg ⟨true, db, [], none⟩ .none hdb'
      (fun b' h => by simp only at h; rw [hroot] at h; cases h) (fun h => rfl)
    exact ⟨_, out, by simp [Walker.newPartial, hroot], h1, h2⟩

/-! ## Nodes and the accounts below them -/

theorem key_inj {env : Env} {db : Db} {nodes : List Bytes} (h : Has env db nodes) {a b : Bytes} (ha : a ∈ nodes)
    (hb : b ∈ nodes) (e : env.K a = env.K b) : a = b := by
  have h1 := h a ha
  rw [e, h b hb] at h1
  cases h1; rfl

/-- A stored node stands for the part of the trie below its path. -/
theorem stored_sub {env : Env} {db : Db} {nodes : List Bytes} (hdb : Has env db nodes) {n : Node} {t : PTrie}
    (hr : Rep env nodes n t) : ∀ {d : Nat} {p : List UInt8} {b : Bytes}, t.Keys d → t.NoEmptyKeys → StoredAt env nodes n p b →
      b ∈ nodes ∧ ∃ n' t' d', env.decode b = some n' ∧ Rep env nodes n' t' ∧ t'.Keys d' ∧ t'.NoEmptyKeys ∧
        p.length + d' = d ∧ Nibble p ∧ ∀ x, t.lookup (p ++ x) = t'.lookup x := by
  induction hr with
  | empty => intro d p b _ _ h; cases h
  | leaf key v => intro d p b _ _ h; cases h
  | extension pre n t _ ih =>
    intro d p b hk hne h
    cases hk with
    | extension _ _ d' hpre hn hk =>
      cases hne with
      | extension _ _ _ hne =>
      cases h with
      | extension _ _ path _ _ h =>
        obtain ⟨h0, n', t', d'', h1, h2, h3, h4, h5, h6, h7⟩ := ih hk hne h
        refine ⟨h0, n', t', d'', h1, h2, h3, h4, by simp; omega, nibble_append hn h6, fun x => ?_⟩
        rw [List.append_assoc, lookup_extension_append]
        exact h7 x
  | branch ns ts v _ ih =>
    intro d p b hk hne h
    cases hk with
    | branch _ d' hk =>
      cases hne with
      | branch _ _ hne =>
      cases h with
      | branch _ _ i path _ h =>
        obtain ⟨h0, n', t', d'', h1, h2, h3, h4, h5, h6, h7⟩ := ih i (hk i) (hne i) h
        refine ⟨h0, n', t', d'', h1, h2, h3, h4, by simp; omega, nibble_append (nibble_one i) h6, fun x => ?_⟩
        have hlt : (UInt8.ofNat i.val).toNat < 16 := by rw [ofNat_toNat]; exact i.isLt
        have hfi : (⟨(UInt8.ofNat i.val).toNat, hlt⟩ : Fin 16) = i := Fin.ext (ofNat_toNat i)
        simp only [List.cons_append, PTrie.lookup, hlt, dif_pos]
        rw [hfi]
        exact h7 x
  | hash b' n t hb hd hr ih =>
    intro d p b hk hne h
    generalize hh : env.K b' = kb at h
    cases h with
    | here b hb' =>
      obtain rfl := key_inj hdb hb hb' hh
      exact ⟨hb, n, t, d, hd, hr, hk, hne, by simp, nibble_nil, fun x => rfl⟩
    | hash b'' n' path b hb'' hd' h =>
      obtain rfl := key_inj hdb hb hb'' hh
      rw [hd] at hd'
      cases hd'
      exact ih hk hne h

/-- A value of the trie is in a stored leaf. -/
theorem lookup_leaf {env : Env} {nodes : List Bytes} (hsp : ∀ b ∈ nodes, ∀ n, env.decode b = some n → Sparse n) {n : Node}
    {t : PTrie} (hr : Rep env nodes n t) : ∀ {d : Nat} {path : List UInt8} {v : Bytes}, t.Keys d → (Sparse n ∨ n = .empty ∨ ∃ h, n = .hash h) →
      t.lookup path = some v →
      n = .leaf (path ++ [16]) v ∨ ∃ p key b, StoredAt env nodes n p b ∧ path = p ++ key ∧ env.decode b = some (.leaf (key ++ [16]) v) := by
  induction hr with
  | empty => intro d path v _ _ h; cases h
  | leaf key v =>
    intro d path v' _ _ h
    simp only [PTrie.lookup] at h
    split at h
    · next e => subst e; cases h; exact .inl rfl
    · cases h
  | extension pre n t _ ih =>
    intro d path v hk hs h
    cases hk with
    | extension _ _ d' hpre hn hk =>
      simp only [PTrie.lookup] at h
      split at h
      · next hp =>
        obtain ⟨x, rfl⟩ := hp
        rw [List.drop_left] at h
        have hh : ∃ hh, n = .hash hh := by
          rcases hs with hs | hs | ⟨_, hs⟩
          · cases hs with
            | extension _ hh => exact ⟨hh, rfl⟩
          · cases hs
          · cases hs
        rcases ih hk (.inr (.inr hh)) h with e | ⟨p, key, b, h1, h2, h3⟩
        · obtain ⟨hh, e'⟩ := hh
          rw [e'] at e; cases e
        · exact .inr ⟨pre ++ p, key, b, .extension pre n p b hpre h1, by rw [h2, List.append_assoc], h3⟩
      · cases h
  | branch ns ts v _ ih =>
    intro d path v' hk hs h
    cases hk with
    | branch _ d' hk =>
      cases path with
      | nil => cases h
      | cons m path =>
        simp only [PTrie.lookup] at h
        split at h
        · next hlt =>
          have hm : m = UInt8.ofNat (⟨m.toNat, hlt⟩ : Fin 16).val := by simp
          have hc : ns ⟨m.toNat, hlt⟩ = .empty ∨ ∃ hh, ns ⟨m.toNat, hlt⟩ = .hash hh := by
            rcases hs with hs | hs | ⟨_, hs⟩
            · cases hs with
              | branch _ _ hc => exact hc _
            · cases hs
            · cases hs
          rcases ih ⟨m.toNat, hlt⟩ (hk _) (.inr hc) h with e | ⟨p, key, b, h1, h2, h3⟩
          · rcases hc with hc | ⟨hh, hc⟩ <;> · rw [hc] at e; cases e
          · refine .inr ⟨m :: p, key, b, ?_, by rw [h2]; rfl, h3⟩
            have := StoredAt.branch (env := env) (db := nodes) ns none ⟨m.toNat, hlt⟩ p b h1
            rw [← hm] at this
            exact this
        · cases h
  | hash b n t hb hd _ ih =>
    intro d path v hk _ h
    right
    rcases ih hk (.inl (hsp b hb n hd)) h with e | ⟨p, key, b', h1, h2, h3⟩
    · exact ⟨[], path, b, .here b hb, rfl, by rw [hd, e]⟩
    · exact ⟨p, key, b', .hash b n p b' hb hd h1, h2, h3⟩

/-- A key has one leaf. -/
theorem leaf_unique {env : Env} {db : Db} {nodes : List Bytes} (hdb : Has env db nodes) {n : Node} {t : PTrie}
    (hr : Rep env nodes n t) : ∀ {p₁ p₂ k₁ k₂ : List UInt8} {b₁ b₂ v₁ v₂ : Bytes}, StoredAt env nodes n p₁ b₁ →
      StoredAt env nodes n p₂ b₂ → env.decode b₁ = some (.leaf k₁ v₁) → env.decode b₂ = some (.leaf k₂ v₂) →
      (∃ x₁ x₂, p₁ ++ x₁ = p₂ ++ x₂) → p₁ = p₂ := by
  induction hr with
  | empty => intro _ _ _ _ _ _ _ _ h; cases h
  | leaf key v => intro _ _ _ _ _ _ _ _ h; cases h
  | extension pre n t _ ih =>
    intro p₁ p₂ k₁ k₂ b₁ b₂ v₁ v₂ h₁ h₂ d₁ d₂ ⟨x₁, x₂, hx⟩
    cases h₁ with
    | extension _ _ q₁ _ _ h₁ =>
    cases h₂ with
    | extension _ _ q₂ _ _ h₂ =>
      rw [ih h₁ h₂ d₁ d₂ ⟨x₁, x₂, by simpa using hx⟩]
  | branch ns ts v _ ih =>
    intro p₁ p₂ k₁ k₂ b₁ b₂ v₁ v₂ h₁ h₂ d₁ d₂ ⟨x₁, x₂, hx⟩
    cases h₁ with
    | branch _ _ i q₁ _ h₁ =>
    cases h₂ with
    | branch _ _ j q₂ _ h₂ =>
      simp only [List.cons_append, List.cons.injEq] at hx
      have hij : i = j := by
        have := congrArg UInt8.toNat hx.1
        rw [ofNat_toNat, ofNat_toNat] at this
        exact Fin.ext this
      subst hij
      rw [ih i h₁ h₂ d₁ d₂ ⟨x₁, x₂, hx.2⟩]
  | hash b n t hb hd _ ih =>
    intro p₁ p₂ k₁ k₂ b₁ b₂ v₁ v₂ h₁ h₂ d₁ d₂ hx
    generalize hh : env.K b = kb at h₁ h₂
    have key : ∀ {p b' k v}, StoredAt env nodes (.hash kb) p b' → env.decode b' = some (.leaf k v) →
        (p = [] ∧ n = .leaf k v) ∨ StoredAt env nodes n p b' := by
      intro p b' k v h d
      cases h with
      | here b₂ hb₂ =>
        obtain rfl := key_inj hdb hb hb₂ hh
        rw [hd] at d
        cases d
        exact .inl ⟨rfl, rfl⟩
      | hash b₂ n₂ _ _ hb₂ hd₂ h =>
        obtain rfl := key_inj hdb hb hb₂ hh
        rw [hd] at hd₂
        cases hd₂
        exact .inr h
    rcases key h₁ d₁ with ⟨e₁, l₁⟩ | h₁'
    · rcases key h₂ d₂ with ⟨e₂, _⟩ | h₂'
      · rw [e₁, e₂]
      · rw [l₁] at h₂'; cases h₂'
    · rcases key h₂ d₂ with ⟨_, l₂⟩ | h₂'
      · rw [l₂] at h₁'; cases h₁'
      · exact ih h₁' h₂' d₁ d₂ hx

end Verif.TrieWalker
