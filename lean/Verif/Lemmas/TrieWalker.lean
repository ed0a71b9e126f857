import Verif.Props.TrieWalkerSpec
import Verif.Lemmas.Trie

namespace Verif.TrieWalker
open Verif.Trie Verif.StateContent

/-! ## The walk as a list of visits -/

/-- What processing a child pushes. -/
def child (env : Env) (w : Walker) (pr : List Bytes) (path : List UInt8) (n : Node) : Option (Option Proof) :=
  match w.admits path with
  | none => none
  | some false => some none
  | some true =>
    match n with
    | .hash h => (w.fetch env h).map fun e => e.map fun e => ⟨path, pr ++ [e]⟩
    | _ => some none

theorem process_eq (env : Env) (w : Walker) (n : Node) (pr : List Bytes) (path : List UInt8) :
    w.process env n pr path = (child env w pr path n).map fun c => { w with stack := c.toList ++ w.stack } := by
  unfold Walker.process child
  cases w.admits path with
  | none => rfl
  | some b =>
    cases b with
    | false => rfl
    | true =>
      cases n with
      | hash h =>
        simp only
        cases w.fetch env h with
        | none => rfl
        | some e => cases e <;> rfl
      | _ => rfl

theorem processChildren_eq (env : Env) (ns : Fin 16 → Node) (pr : List Bytes) (path : List UInt8) :
    ∀ (l : List (Fin 16)) (w : Walker), w.processChildren env ns pr path l =
      (l.mapM fun i => child env w pr (path ++ [UInt8.ofNat i.val]) (ns i)).map
        fun cs => { w with stack := cs.reverse.flatMap Option.toList ++ w.stack } := by
  intro l
  induction l with
  | nil => intro w; rfl
  | cons i l ih =>
    intro w
    rw [Walker.processChildren, process_eq, List.mapM_cons]
    cases hc : child env w pr (path ++ [UInt8.ofNat i.val]) (ns i) with
    | none => rfl
    | some c =>
      simp only [Option.map_some]
      rw [ih]
      have hsame : (fun i => child env { w with stack := c.toList ++ w.stack } pr (path ++ [UInt8.ofNat i.val]) (ns i)) =
        fun i => child env w pr (path ++ [UInt8.ofNat i.val]) (ns i) := rfl
      rw [hsame]
      simp only [Option.bind_eq_bind, Option.bind_some]
      cases l.mapM fun i => child env w pr (path ++ [UInt8.ofNat i.val]) (ns i) with
      | none => rfl
      | some cs => simp

/-- The children that a node pushes, the first to be visited first. -/
def kids (env : Env) (w : Walker) (p : Proof) : Option (List Proof) :=
  match p.proof.getLast? with
  | none => none
  | some last =>
    match env.decode last with
    | none => none
    | some (.extension pre n) => (child env w p.proof (p.path ++ pre) n).map Option.toList
    | some (.branch ns _) =>
      ((List.finRange 16).reverse.mapM fun i => child env w p.proof (p.path ++ [UInt8.ofNat i.val]) (ns i)).map
        fun cs => cs.reverse.flatMap Option.toList
    | some _ => some []

theorem next_eq (env : Env) (w : Walker) (p : Proof) (rest : List Proof) (h : w.stack = p :: rest) :
    w.next env = (kids env w p).map fun cs => (some p, { w with stack := cs ++ rest }) := by
  unfold Walker.next kids
  rw [h]
  simp only
  cases p.proof.getLast? with
  | none => rfl
  | some last =>
    simp only
    cases env.decode last with
    | none => rfl
    | some n =>
      cases n with
      | extension pre n =>
        simp only
        rw [process_eq]
        simp only [Option.map_map]
        rfl
      | branch ns v =>
        simp only
        rw [processChildren_eq]
        simp only [Option.map_map]
        rfl
      | _ => rfl

/-- The visits of a walk that ends. -/
inductive Visits (env : Env) (w : Walker) : List Proof → List Proof → Prop
  | nil : Visits env w [] []
  | cons (p rest cs out) : kids env w p = some cs → Visits env w (cs ++ rest) out → Visits env w (p :: rest) (p :: out)

theorem Visits.append {env : Env} {w : Walker} {a x b y : List Proof} (ha : Visits env w a x) (hb : Visits env w b y) :
    Visits env w (a ++ b) (x ++ y) := by
  induction ha with
  | nil => exact hb
  | cons p rest cs out hk _ ih => exact .cons p (rest ++ b) cs (out ++ y) hk (by rw [← List.append_assoc]; exact ih)

theorem Visits.flatMap {α : Type} {env : Env} {w : Walker} {c : α → List Proof} {o : α → List Proof} :
    ∀ l : List α, (∀ i ∈ l, Visits env w (c i) (o i)) → Visits env w (l.flatMap c) (l.flatMap o)
  | [], _ => .nil
  | i :: l, h => by
    rw [List.flatMap_cons, List.flatMap_cons]
    exact (h i (.head _)).append (Visits.flatMap l fun j hj => h j (.tail _ hj))

theorem Visits.take {env : Env} {w : Walker} {s out : List Proof} (h : Visits env w s out) :
    ∀ n, out.length ≤ n → Walker.take env n { w with stack := s } = some (out, { w with stack := [] }) := by
  induction h with
  | nil =>
    intro n _
    cases n <;> rfl
  | cons p rest cs out hk _ ih =>
    intro n hn
    cases n with
    | zero => simp at hn
    | succ n =>
      have hk' : kids env { w with stack := p :: rest } p = some cs := hk
      rw [Walker.take, next_eq env { w with stack := p :: rest } p rest rfl, hk']
      simp only [Option.map_some]
      rw [ih n (by simpa using hn)]
      rfl

theorem Visits.all {env : Env} {w : Walker} {s out : List Proof} (h : Visits env w s out) (n : Nat) (hn : out.length ≤ n) :
    Walker.all env n { w with stack := s } = some out := by
  unfold Walker.all
  rw [h.take n hn]
  simp

/-! ## Every proof leads from the root to its node -/

/-- The proof is accepted for its path, and for the paths below it leads to its last node. -/
def Good (env : Env) (root : Id) (q : Proof) : Prop :=
  ∃ first rest last, q.proof = first :: rest ∧ env.K first = root ∧ q.proof.getLast? = some last ∧
    ∀ x, follow env first (q.path ++ x) rest = .ok (last, x)

theorem follow_snoc {env : Env} {h : Id} {c : Bytes} {x : List UInt8} : ∀ (rest : List Bytes) (node : Bytes)
    (path : List UInt8) (last : Bytes) (r : List UInt8), follow env node path rest = .ok (last, r) →
    nextNode env last r = .ok (h, x) → env.K c = h → follow env node path (rest ++ [c]) = .ok (c, x)
  | [], node, path, last, r, hf, hn, hc => by
    simp only [follow, Except.ok.injEq, Prod.mk.injEq] at hf
    obtain ⟨rfl, rfl⟩ := hf
    simp [follow, hn, checkNodeHash, hc]
  | b :: rest, node, path, last, r, hf, hn, hc => by
    simp only [List.cons_append, follow] at hf ⊢
    split at hf
    · cases hf
    · next h' r' hn' =>
      split at hf
      · cases hf
      · exact follow_snoc rest b r' last r hf hn hc

theorem fetch_some {env : Env} {w : Walker} {h : Id} {b : Bytes} (hf : w.fetch env h = some (some b)) :
    w.db h = some (some b) := by
  unfold Walker.fetch at hf
  split at hf
  · cases hf
  · split at hf <;> cases hf
  · next e he =>
    split at hf
    · cases hf
    · cases hf
    · cases hf
    · cases hf; exact he

theorem child_some {env : Env} {w : Walker} {pr : List Bytes} {path : List UInt8} {n : Node} {q : Proof}
    (h : child env w pr path n = some (some q)) :
    ∃ h b, n = .hash h ∧ w.db h = some (some b) ∧ q = ⟨path, pr ++ [b]⟩ ∧ w.admits path = some true := by
  unfold child at h
  split at h
  · cases h
  · cases h
  · next ha =>
    split at h
    · next hh =>
      cases hf : w.fetch env hh with
      | none => rw [hf] at h; cases h
      | some e =>
        rw [hf] at h
        cases e with
        | none => cases h
        | some b =>
          simp only [Option.map_some, Option.some.injEq] at h
          exact ⟨hh, b, rfl, fetch_some hf, h.symm, ha⟩
    · cases h

theorem mapM_some_mem {α β : Type} {f : α → Option β} : ∀ {l : List α} {cs : List β}, l.mapM f = some cs → ∀ c ∈ cs,
    ∃ a ∈ l, f a = some c
  | [], cs, h, c, hc => by
    simp only [List.mapM_nil, Option.pure_def, Option.some.injEq] at h
    subst h; cases hc
  | a :: l, cs, h, c, hc => by
    rw [List.mapM_cons] at h
    cases hf : f a with
    | none => simp [hf] at h
    | some b =>
      cases hm : l.mapM f with
      | none => simp [hf, hm] at h
      | some bs =>
        simp only [hf, hm, Option.bind_eq_bind, Option.bind_some, Option.pure_def, Option.some.injEq] at h
        subst h
        rcases List.mem_cons.mp hc with rfl | hc
        · exact ⟨a, .head _, hf⟩
        · obtain ⟨a', h1, h2⟩ := mapM_some_mem hm c hc
          exact ⟨a', .tail _ h1, h2⟩

theorem mapM_some_map {α β : Type} {f : α → Option β} {g : α → β} : ∀ l : List α, (∀ a ∈ l, f a = some (g a)) →
    l.mapM f = some (l.map g)
  | [], _ => rfl
  | a :: l, h => by
    rw [List.mapM_cons, h a (.head _), mapM_some_map l fun b hb => h b (.tail _ hb)]
    rfl

/-- Where a pushed node comes from. -/
theorem kids_mem {env : Env} {w : Walker} {p : Proof} {cs : List Proof} (h : kids env w p = some cs) {q : Proof}
    (hq : q ∈ cs) : ∃ last h b pre, p.proof.getLast? = some last ∧ w.db h = some (some b) ∧
      q = ⟨p.path ++ pre, p.proof ++ [b]⟩ ∧ w.admits (p.path ++ pre) = some true ∧
      ((env.decode last = some (.extension pre (.hash h))) ∨
        ∃ ns v, ∃ i : Fin 16, env.decode last = some (.branch ns v) ∧ pre = [UInt8.ofNat i.val] ∧ ns i = .hash h) := by
  unfold kids at h
  split at h
  · cases h
  · next last hl =>
    split at h
    · cases h
    · next pre n hd =>
      cases hc : child env w p.proof (p.path ++ pre) n with
      | none => rw [hc] at h; cases h
      | some c =>
        rw [hc] at h
        simp only [Option.map_some, Option.some.injEq] at h
        subst h
        cases c with
        | none => cases hq
        | some q' =>
          simp only [Option.toList, List.mem_singleton] at hq
          subst hq
          obtain ⟨hh, b, rfl, h2, h3, h4⟩ := child_some hc
          exact ⟨last, hh, b, pre, hl, h2, h3, h4, .inl hd⟩
    · next ns v hd =>
      cases hm : ((List.finRange 16).reverse.mapM fun i => child env w p.proof (p.path ++ [UInt8.ofNat i.val]) (ns i)) with
      | none => rw [hm] at h; cases h
      | some cs' =>
        rw [hm] at h
        simp only [Option.map_some, Option.some.injEq] at h
        subst h
        obtain ⟨c, h1, h2⟩ := List.mem_flatMap.mp hq
        cases c with
        | none => cases h2
        | some q' =>
          simp only [Option.toList, List.mem_singleton] at h2
          subst h2
          obtain ⟨i, _, hi⟩ := mapM_some_mem hm (some q) (List.mem_reverse.mp h1)
          obtain ⟨hh, b, h3, h4, h5, h6⟩ := child_some hi
          exact ⟨last, hh, b, _, hl, h4, h5, h6, .inr ⟨ns, v, i, hd, rfl, h3⟩⟩
    · cases h; cases hq

theorem ofNat_toNat (i : Fin 16) : (UInt8.ofNat i.val).toNat = i.val := by
  simp only [UInt8.toNat_ofNat']
  exact Nat.mod_eq_of_lt (by omega)

theorem kids_good {env : Env} {w : Walker} {root : Id} (hdb : Addressed env w.db)
    (hext : ∀ b pre n, env.decode b = some (.extension pre n) → pre ≠ []) {p : Proof} {cs : List Proof}
    (h : kids env w p = some cs) (hp : Good env root p) : ∀ q ∈ cs, Good env root q := by
  intro q hq
  obtain ⟨last, hh, b, pre, h1, h2, h3, _, h5⟩ := kids_mem h hq
  obtain ⟨first, rest, last', g1, g2, g3, g4⟩ := hp
  rw [h1] at g3
  cases g3
  subst h3
  refine ⟨first, rest ++ [b], b, by rw [g1]; rfl, g2, by simp, fun x => ?_⟩
  have hf := g4 (pre ++ x)
  simp only
  rw [List.append_assoc]
  refine follow_snoc rest first _ last (pre ++ x) hf ?_ (hdb _ _ h2)
  rcases h5 with hd | ⟨ns, v, i, hd, rfl, hi⟩
  · simp [nextNode, hd, Node.traverse, hext _ _ _ hd, stripPrefix_append]
  · have hlt : (UInt8.ofNat i.val).toNat < 16 := by rw [ofNat_toNat]; exact i.isLt
    have hfi : (⟨(UInt8.ofNat i.val).toNat, hlt⟩ : Fin 16) = i := Fin.ext (ofNat_toNat i)
    simp only [nextNode, hd, List.cons_append, List.nil_append, Node.traverse, hlt, dif_pos]
    rw [hfi, hi]
    simp [Node.traverse]

theorem take_good {env : Env} {root : Id} (hext : ∀ b pre n, env.decode b = some (.extension pre n) → pre ≠ []) :
    ∀ (n : Nat) (w w' : Walker) (out : List Proof), Addressed env w.db → w.take env n = some (out, w') →
      (∀ q ∈ w.stack, Good env root q) → ∀ q ∈ out, Good env root q
  | 0, w, w', out, _, h, _ => by
    simp only [Walker.take, Option.some.injEq, Prod.mk.injEq] at h
    obtain ⟨rfl, _⟩ := h
    simp
  | n + 1, w, w', out, hdb, h, hs => by
    cases hst : w.stack with
    | nil =>
      have : w.next env = some (none, w) := by unfold Walker.next; rw [hst]
      rw [Walker.take, this] at h
      simp only [Option.some.injEq, Prod.mk.injEq] at h
      obtain ⟨rfl, _⟩ := h
      simp
    | cons p rest =>
      rw [Walker.take, next_eq env w p rest hst] at h
      cases hk : kids env w p with
      | none => rw [hk] at h; cases h
      | some cs =>
        rw [hk] at h
        simp only [Option.map_some] at h
        rw [hst] at hs
        have hp := hs p (.head _)
        cases ht : Walker.take env n { w with stack := cs ++ rest } with
        | none => rw [ht] at h; cases h
        | some r =>
          rw [ht] at h
          simp only [Option.map_some, Option.some.injEq, Prod.mk.injEq] at h
          obtain ⟨rfl, _⟩ := h
          intro q hq
          rcases List.mem_cons.mp hq with rfl | hq
          · exact hp
          · refine take_good hext n { w with stack := cs ++ rest } r.2 r.1 hdb ht (fun q hq => ?_) q hq
            rcases List.mem_append.mp hq with hq | hq
            · exact kids_good hdb hext hk hp q hq
            · exact hs q (.tail _ hq)

theorem good_root {env : Env} {root : Id} {b : Bytes} (h : env.K b = root) : Good env root ⟨[], [b]⟩ :=
  ⟨b, [], b, rfl, h, rfl, fun _ => rfl⟩

theorem Good.validates {env : Env} {root : Id} {q : Proof} (h : Good env root q) :
    ∃ last, q.proof.getLast? = some last ∧ validateNodeTrieProof env (some root) (env.K last) q.path q.proof = .ok () := by
  obtain ⟨first, rest, last, h1, h2, h3, h4⟩ := h
  refine ⟨last, h3, ?_⟩
  have := h4 []
  rw [List.append_nil] at this
  simp [validateNodeTrieProof, validateTrieProof, h1, checkNodeHash, h2, this]

theorem mapM_some_all {α β : Type} {f : α → Option β} : ∀ {l : List α} {cs : List β}, l.mapM f = some cs → ∀ a ∈ l,
    ∃ c, f a = some c
  | [], _, _, a, ha => (nomatch ha)
  | x :: l, cs, h, a, ha => by
    rw [List.mapM_cons] at h
    cases hf : f x with
    | none => simp [hf] at h
    | some b =>
      cases hm : l.mapM f with
      | none => simp [hf, hm] at h
      | some bs =>
        rcases List.mem_cons.mp ha with rfl | ha
        · exact ⟨b, hf⟩
        · exact mapM_some_all hm a ha

/-- The children of a yielded node have been processed. -/
theorem take_kids {env : Env} : ∀ (n : Nat) (w w' : Walker) (out : List Proof), w.take env n = some (out, w') →
    ∀ q ∈ out, ∃ cs, kids env w q = some cs
  | 0, w, w', out, h => by
    simp only [Walker.take, Option.some.injEq, Prod.mk.injEq] at h
    obtain ⟨rfl, _⟩ := h
    simp
  | n + 1, w, w', out, h => by
    cases hst : w.stack with
    | nil =>
      have : w.next env = some (none, w) := by unfold Walker.next; rw [hst]
      rw [Walker.take, this] at h
      simp only [Option.some.injEq, Prod.mk.injEq] at h
      obtain ⟨rfl, _⟩ := h
      simp
    | cons p rest =>
      rw [Walker.take, next_eq env w p rest hst] at h
      cases hk : kids env w p with
      | none => rw [hk] at h; cases h
      | some cs =>
        rw [hk] at h
        simp only [Option.map_some] at h
        cases ht : Walker.take env n { w with stack := cs ++ rest } with
        | none => rw [ht] at h; cases h
        | some r =>
          rw [ht] at h
          simp only [Option.map_some, Option.some.injEq, Prod.mk.injEq] at h
          obtain ⟨rfl, _⟩ := h
          intro q hq
          rcases List.mem_cons.mp hq with rfl | hq
          · exact ⟨cs, hk⟩
          · exact take_kids n { w with stack := cs ++ rest } r.2 r.1 ht q hq

/-! ## Order of paths -/

theorem lt_append (p : List UInt8) {x : List UInt8} (h : x ≠ []) : p < p ++ x := by
  induction p with
  | nil =>
    cases x with
    | nil => exact absurd rfl h
    | cons a x => exact List.Lex.nil
  | cons a p ih => exact List.Lex.cons ih

theorem append_lt (p : List UInt8) {a b : UInt8} (x y : List UInt8) (h : a < b) : p ++ a :: x < p ++ b :: y := by
  induction p with
  | nil => exact List.Lex.rel h
  | cons c p ih => exact List.Lex.cons ih

/-! ## A genuine trie is walked completely -/

theorem toList_visits {env : Env} {w : Walker} {c : Option Proof} (h : c = none) : Visits env w c.toList [] := by
  subst h; exact .nil

theorem mem_available {env : Env} {db : Db} {nodes : List Bytes} {b : Bytes} :
    b ∈ available env db nodes ↔ b ∈ nodes ∧ db (env.K b) = some (some b) := by
  simp [available]

/-- What the walk needs of its database and filter. -/
structure Served (env : Env) (nodes : List Bytes) (w : Walker) : Prop where
  stored : ∀ b ∈ nodes, ∀ n, env.decode b = some n → Stored n
  served : ∀ b ∈ nodes, w.db (env.K b) = some (some b) ∨ (w.isPartial = true ∧ w.db (env.K b) = some none)
  total : ∀ p, p.length ≤ 64 → w.admits p ≠ none
  mono : ∀ p x, p.length + x.length ≤ 64 → Nibble (p ++ x) → w.admits (p ++ x) = some true → w.admits p = some true

theorem nibble_append {a b : List UInt8} (ha : Nibble a) (hb : Nibble b) : Nibble (a ++ b) := by
  intro n hn
  rcases List.mem_append.mp hn with h | h
  · exact ha n h
  · exact hb n h

theorem nibble_one (i : Fin 16) : Nibble [UInt8.ofNat i.val] := by
  intro n hn
  simp only [List.mem_singleton] at hn
  subst hn
  rw [ofNat_toNat]
  exact i.isLt

/-- A path to a stored node is no longer than the keys. -/
theorem stored_path {env : Env} {nodes : List Bytes} {w : Walker} (hs : Served env nodes w) {n : Node} {t : PTrie}
    (hr : Rep env nodes n t) : ∀ {d : Nat} {p : List UInt8} {b : Bytes}, t.Keys d →
      StoredAt env (available env w.db nodes) n p b → p.length ≤ d ∧ Nibble p := by
  induction hr with
  | empty => intro d p b _ h; cases h
  | leaf key v => intro d p b _ h; cases h
  | extension pre n t _ ih =>
    intro d p b hk h
    cases hk with
    | extension _ _ d' _ hn hk =>
      cases h with
      | extension _ _ path _ _ h =>
        obtain ⟨h1, h2⟩ := ih hk h
        exact ⟨by simp; omega, nibble_append hn h2⟩
  | branch ns ts v _ ih =>
    intro d p b hk h
    cases hk with
    | branch _ d' hk =>
      cases h with
      | branch _ _ i path _ h =>
        obtain ⟨h1, h2⟩ := ih i (hk i) h
        exact ⟨by simp; omega, nibble_append (nibble_one i) h2⟩
  | hash b' n t hb hd _ ih =>
    intro d p b hk h
    generalize hh : env.K b' = kb at h
    cases h with
    | here b hb' => exact ⟨Nat.zero_le _, by intro n hn; cases hn⟩
    | hash b'' n' path b hb'' hd' h =>
      obtain ⟨_, h2⟩ := mem_available.mp hb''
      rw [← hh] at h2
      rcases hs.served b' hb with h3 | ⟨_, h3⟩
      · rw [h2] at h3
        cases h3
        rw [hd] at hd'
        cases hd'
        exact ih hk h
      · rw [h2] at h3; cases h3

/-- The proofs of the stored nodes below a node at `path`, reached with `pr`, in order. -/
structure Lists (env : Env) (nodes : List Bytes) (w : Walker) (pr : List Bytes) (path : List UInt8) (n : Node)
    (out : List Proof) : Prop where
  exact : ∀ p b, (∃ q ∈ out, q.path = path ++ p ∧ q.proof.getLast? = some b) ↔
    StoredAt env (available env w.db nodes) n p b ∧ w.admits (path ++ p) = some true
  below : ∀ q ∈ out, ∃ p, q.path = path ++ p ∧ q.proof.length ≤ pr.length + 1 + p.length ∧
    (∀ x ∈ q.proof, x ∈ pr ∨ x ∈ nodes)
  ordered : out.Pairwise fun a b => a.path < b.path

theorem Lists.nil {env : Env} {nodes : List Bytes} {w : Walker} {pr : List Bytes} {path : List UInt8} {n : Node}
    (h : ∀ p b, StoredAt env (available env w.db nodes) n p b → w.admits (path ++ p) ≠ some true) :
    Lists env nodes w pr path n [] :=
  ⟨fun p b => ⟨fun ⟨_, hq, _⟩ => (nomatch hq), fun ⟨h1, h2⟩ => absurd h2 (h p b h1)⟩, fun _ hq => (nomatch hq), .nil⟩

theorem inline_stored {env : Env} {db : List Bytes} {n : Node} (hi : Inline n) : ∀ {p b}, ¬ StoredAt env db n p b := by
  induction hi with
  | empty => intro p b h; cases h
  | leaf key v => intro p b h; cases h
  | extension pre n _ ih =>
    intro p b h
    cases h with
    | extension _ _ path _ _ h => exact ih h
  | branch ns v _ ih =>
    intro p b h
    cases h with
    | branch _ _ i path _ h => exact ih i h

theorem child_inline {env : Env} {w : Walker} {pr : List Bytes} {path : List UInt8} {n : Node} (hi : Inline n)
    (h : w.admits path ≠ none) : child env w pr path n = some none := by
  unfold child
  cases ha : w.admits path with
  | none => exact absurd ha h
  | some b => cases b <;> cases hi <;> rfl

/-- The proof leads to the child. -/
def Reach (env : Env) (root : Id) (pr : List Bytes) (path : List UInt8) (n : Node) : Prop :=
  ∀ b, n = .hash (env.K b) → Good env root ⟨path, pr ++ [b]⟩

theorem Good.extension {env : Env} {root : Id} {q : Proof} (h : Good env root q) {b : Bytes} {pre : List UInt8} {n : Node}
    (hb : q.proof.getLast? = some b) (hd : env.decode b = some (.extension pre n)) (hp : pre ≠ []) :
    Reach env root q.proof (q.path ++ pre) n := by
  rintro c rfl
  obtain ⟨first, rest, last, g1, g2, g3, g4⟩ := h
  rw [hb] at g3
  cases g3
  refine ⟨first, rest ++ [c], c, by rw [g1]; rfl, g2, by simp, fun x => ?_⟩
  simp only
  rw [List.append_assoc]
  refine follow_snoc rest first _ b (pre ++ x) (g4 (pre ++ x)) ?_ rfl
  simp [nextNode, hd, Node.traverse, hp, stripPrefix_append]

theorem Good.branch {env : Env} {root : Id} {q : Proof} (h : Good env root q) {b : Bytes} {ns : Fin 16 → Node}
    {v : Option Bytes} (hb : q.proof.getLast? = some b) (hd : env.decode b = some (.branch ns v)) (i : Fin 16) :
    Reach env root q.proof (q.path ++ [UInt8.ofNat i.val]) (ns i) := by
  intro c hc
  obtain ⟨first, rest, last, g1, g2, g3, g4⟩ := h
  rw [hb] at g3
  cases g3
  refine ⟨first, rest ++ [c], c, by rw [g1]; rfl, g2, by simp, fun x => ?_⟩
  simp only
  rw [List.append_assoc]
  refine follow_snoc rest first _ b ([UInt8.ofNat i.val] ++ x) (g4 _) ?_ rfl
  have hlt : (UInt8.ofNat i.val).toNat < 16 := by rw [ofNat_toNat]; exact i.isLt
  have hfi : (⟨(UInt8.ofNat i.val).toNat, hlt⟩ : Fin 16) = i := Fin.ext (ofNat_toNat i)
  simp only [nextNode, hd, List.cons_append, List.nil_append, Node.traverse, hlt, dif_pos]
  rw [hfi, hc]
  simp [Node.traverse]

/-- What the walk does with a child. -/
def AsChild (env : Env) (nodes : List Bytes) (w : Walker) (n : Node) (t : PTrie) : Prop :=
  ∀ pr path d, Child n → t.Keys d → Nibble path → path.length + d ≤ 64 →
    ∃ c out, child env w pr path n = some c ∧ Visits env w c.toList out ∧ Lists env nodes w pr path n out ∧
      ∀ root, Reach env root pr path n → ∀ q ∈ out, Good env root q

/-- What the walk does with the children of a node. -/
def AsNode (env : Env) (nodes : List Bytes) (w : Walker) (n : Node) (t : PTrie) : Prop :=
  ∀ (q : Proof) b d, Stored n → t.Keys d → Nibble q.path → q.path.length + d ≤ 64 → q.proof.getLast? = some b →
    env.decode b = some n →
    ∃ cs out, kids env w q = some cs ∧ Visits env w cs out ∧
      (∀ p b, (∃ r ∈ out, r.path = q.path ++ p ∧ r.proof.getLast? = some b) ↔
        StoredAt env (available env w.db nodes) n p b ∧ w.admits (q.path ++ p) = some true) ∧
      (∀ r ∈ out, ∃ p, p ≠ [] ∧ r.path = q.path ++ p ∧ r.proof.length ≤ q.proof.length + p.length ∧
        (∀ x ∈ r.proof, x ∈ q.proof ∨ x ∈ nodes)) ∧
      (out.Pairwise fun a b => a.path < b.path) ∧ ∀ root, Good env root q → ∀ r ∈ out, Good env root r

theorem asChild_inline {env : Env} {nodes : List Bytes} {w : Walker} (hs : Served env nodes w) {n : Node}
    (hi : Inline n) (pr : List Bytes) (path : List UInt8) (hl : path.length ≤ 64) :
    ∃ c out, child env w pr path n = some c ∧ Visits env w c.toList out ∧ Lists env nodes w pr path n out ∧
      ∀ root, Reach env root pr path n → ∀ q ∈ out, Good env root q :=
  ⟨none, [], child_inline hi (hs.total _ hl), .nil, .nil fun _ _ h => absurd h (inline_stored hi),
    fun _ _ _ hq => (nomatch hq)⟩

theorem child_cases {n : Node} (h : Child n) : (∃ h, n = .hash h) ∨ Inline n := by
  cases h with
  | hash h => exact .inl ⟨h, rfl⟩
  | inline _ hi => exact .inr hi

theorem walk_rep {env : Env} {nodes : List Bytes} {w : Walker} (hs : Served env nodes w) {n : Node} {t : PTrie}
    (hr : Rep env nodes n t) : AsChild env nodes w n t ∧ AsNode env nodes w n t := by
  induction hr with
  | empty =>
    exact ⟨fun pr path d hc hk hn hl => asChild_inline hs .empty pr path (by omega), fun q b d hst => by cases hst⟩
  | leaf key v =>
    refine ⟨fun pr path d hc hk hn hl => asChild_inline hs (.leaf _ _) pr path (by omega), ?_⟩
    intro q b d _ _ _ _ hb hd
    refine ⟨[], [], by simp [kids, hb, hd], .nil, fun p b => ?_, fun _ hq => (nomatch hq), .nil, fun _ _ _ hq => (nomatch hq)⟩
    constructor
    · rintro ⟨_, hq, _⟩; cases hq
    · rintro ⟨h, _⟩; cases h
  | extension pre n t hr ih =>
    constructor
    · intro pr path d hc hk hn hl
      rcases child_cases hc with ⟨h, hh⟩ | hi
      · cases hh
      · exact asChild_inline hs hi pr path (by omega)
    · intro q b d hst hk hn hl hb hd
      cases hst with
      | extension _ _ hpre hc =>
      cases hk with
      | extension _ _ d' _ hnp hk =>
        obtain ⟨c, out, h1, h2, h3, hg⟩ := ih.1 q.proof (q.path ++ pre) d' hc hk (nibble_append hn hnp) (by simp; omega)
        refine ⟨c.toList, out, by simp [kids, hb, hd, h1], h2, fun p b' => ?_, fun r hr => ?_, h3.ordered,
          fun root hq => hg root (hq.extension hb hd hpre)⟩
        · constructor
          · rintro ⟨r, hr, hp, hl'⟩
            obtain ⟨p', hp', _⟩ := h3.below r hr
            have hpp : p = pre ++ p' := by
              rw [hp, List.append_assoc] at hp'
              exact List.append_cancel_left hp'
            obtain ⟨h4, h5⟩ := (h3.exact p' b').mp ⟨r, hr, hp', hl'⟩
            subst hpp
            exact ⟨.extension pre n p' b' hpre h4, by rw [← List.append_assoc]; exact h5⟩
          · rintro ⟨h4, h5⟩
            cases h4 with
            | extension _ _ p' _ _ h4 =>
              obtain ⟨r, hr, hp, hl'⟩ := (h3.exact p' b').mpr ⟨h4, by rw [List.append_assoc]; exact h5⟩
              exact ⟨r, hr, by rw [hp, List.append_assoc], hl'⟩
        · obtain ⟨p', h4, h5, h6⟩ := h3.below r hr
          refine ⟨pre ++ p', by simp [hpre], by rw [h4, List.append_assoc], ?_, h6⟩
          have : 0 < pre.length := List.length_pos_iff.mpr hpre
          simp; omega
  | branch ns ts v hr ih =>
    constructor
    · intro pr path d hc hk hn hl
      rcases child_cases hc with ⟨h, hh⟩ | hi
      · cases hh
      · exact asChild_inline hs hi pr path (by omega)
    · intro q b d hst hk hn hl hb hd
      cases hst with
      | branch _ _ hc =>
      cases hk with
      | branch _ d' hk =>
        have hall : ∀ i, ∃ r : Option Proof × List Proof,
            child env w q.proof (q.path ++ [UInt8.ofNat i.val]) (ns i) = some r.1 ∧
            Visits env w r.1.toList r.2 ∧ Lists env nodes w q.proof (q.path ++ [UInt8.ofNat i.val]) (ns i) r.2 ∧
            ∀ root, Reach env root q.proof (q.path ++ [UInt8.ofNat i.val]) (ns i) → ∀ q ∈ r.2, Good env root q := by
          intro i
          obtain ⟨c, out, h1, h2, h3, h4⟩ := (ih i).1 q.proof (q.path ++ [UInt8.ofNat i.val]) d' (hc i) (hk i)
            (nibble_append hn (nibble_one i)) (by simp; omega)
          exact ⟨(c, out), h1, h2, h3, h4⟩
        obtain ⟨f, hf⟩ := Classical.axiomOfChoice hall
        have hkids : kids env w q = some ((List.finRange 16).flatMap fun i => (f i).1.toList) := by
          unfold kids
          rw [hb]
          simp only [hd]
          rw [mapM_some_map (g := fun i => (f i).1) _ fun i _ => (hf i).1]
          simp [List.map_reverse, List.flatMap_map]
        refine ⟨_, (List.finRange 16).flatMap fun i => (f i).2, hkids,
          Visits.flatMap _ fun i _ => (hf i).2.1, fun p b' => ?_, fun r hr => ?_, ?_, fun root hq r hr => ?_⟩
        · constructor
          · rintro ⟨r, hr, hp, hl'⟩
            obtain ⟨i, _, hr⟩ := List.mem_flatMap.mp hr
            have h3 := (hf i).2.2.1
            obtain ⟨p', hp', _⟩ := h3.below r hr
            have hpp : p = UInt8.ofNat i.val :: p' := by
              rw [hp, List.append_assoc] at hp'
              exact List.append_cancel_left hp'
            obtain ⟨h4, h5⟩ := (h3.exact p' b').mp ⟨r, hr, hp', hl'⟩
            subst hpp
            exact ⟨.branch ns none i p' b' h4, by rw [List.append_assoc] at h5; exact h5⟩
          · rintro ⟨h4, h5⟩
            cases h4 with
            | branch _ _ i p' _ h4 =>
              obtain ⟨r, hr, hp, hl'⟩ := ((hf i).2.2.1.exact p' b').mpr ⟨h4, by rw [List.append_assoc]; exact h5⟩
              exact ⟨r, List.mem_flatMap.mpr ⟨i, List.mem_finRange i, hr⟩, by rw [hp, List.append_assoc]; rfl, hl'⟩
        · obtain ⟨i, _, hr⟩ := List.mem_flatMap.mp hr
          obtain ⟨p', h4, h5, h6⟩ := (hf i).2.2.1.below r hr
          exact ⟨UInt8.ofNat i.val :: p', by simp, by rw [h4, List.append_assoc]; rfl, by simp; omega, h6⟩
        · rw [List.pairwise_flatMap]
          refine ⟨fun i _ => (hf i).2.2.1.ordered, ?_⟩
          refine (List.pairwise_lt_finRange 16).imp fun {i j} hij x hx y hy => ?_
          obtain ⟨p, hp, _⟩ := (hf i).2.2.1.below x hx
          obtain ⟨p', hp', _⟩ := (hf j).2.2.1.below y hy
          rw [hp, hp', List.append_assoc, List.append_assoc]
          refine append_lt _ _ _ ?_
          rw [UInt8.lt_iff_toNat_lt, ofNat_toNat, ofNat_toNat]
          exact hij
        · obtain ⟨i, _, hr⟩ := List.mem_flatMap.mp hr
          exact (hf i).2.2.2 root (hq.branch hb hd i) r hr
  | hash b n t hb hd hr ih =>
    refine ⟨?_, fun q b' d hst => by cases hst⟩
    intro pr path d _ hk hn hl
    have hst := hs.stored b hb n hd
    cases ha : w.admits path with
    | none => exact absurd ha (hs.total _ (by omega))
    | some v =>
      cases v with
      | false =>
        refine ⟨none, [], by simp [child, ha], .nil, .nil fun p b' h h5 => ?_, fun _ _ _ hq => (nomatch hq)⟩
        obtain ⟨h1, h2⟩ := stored_path hs (.hash b n t hb hd hr) hk h
        have := hs.mono path p (by omega) (nibble_append hn h2) h5
        rw [ha] at this; cases this
      | true =>
        rcases hs.served b hb with h1 | ⟨hp, h1⟩
        · have hc : child env w pr path (.hash (env.K b)) = some (some ⟨path, pr ++ [b]⟩) := by
            have hfe : w.fetch env (env.K b) = some (some b) := by
              unfold Walker.fetch
              rw [h1]
              simp only [hd]
              cases hst <;> rfl
            unfold child
            rw [ha]
            simp only [hfe, Option.map_some]
          obtain ⟨cs, out, h2, h3, h4, h5, h6, hg⟩ := ih.2 ⟨path, pr ++ [b]⟩ b d hst hk hn hl (by simp) hd
          refine ⟨_, ⟨path, pr ++ [b]⟩ :: out, hc, .cons _ _ cs _ h2 (by simpa using h3), ⟨?_, ?_, ?_⟩, ?_⟩
          · intro p b'
            constructor
            · rintro ⟨r, hr', hp, hl'⟩
              rcases List.mem_cons.mp hr' with rfl | hr'
              · have hpn : p = [] := by
                  have : path ++ [] = path ++ p := by simpa using hp
                  exact (List.append_cancel_left this).symm
                subst hpn
                simp only [List.getLast?_append, List.getLast?_singleton, Option.some_or, Option.some.injEq] at hl'
                subst hl'
                exact ⟨.here b (mem_available.mpr ⟨hb, h1⟩), by simpa using ha⟩
              · obtain ⟨h7, h8⟩ := (h4 p b').mp ⟨r, hr', hp, hl'⟩
                exact ⟨.hash b n p b' (mem_available.mpr ⟨hb, h1⟩) hd h7, h8⟩
            · rintro ⟨h7, h8⟩
              generalize hh : env.K b = kb at h7
              cases h7 with
              | here b₂ hb₂ =>
                obtain ⟨_, h9⟩ := mem_available.mp hb₂
                rw [← hh, h1] at h9
                cases h9
                exact ⟨_, .head _, by simp, by simp⟩
              | hash b₂ n₂ _ _ hb₂ hd₂ h7 =>
                obtain ⟨_, h9⟩ := mem_available.mp hb₂
                rw [← hh, h1] at h9
                cases h9
                rw [hd] at hd₂
                cases hd₂
                obtain ⟨r, hr', hx⟩ := (h4 p b').mpr ⟨h7, h8⟩
                exact ⟨r, .tail _ hr', hx⟩
          · intro r hr'
            rcases List.mem_cons.mp hr' with rfl | hr'
            · refine ⟨[], by simp, by simp, fun x hx => ?_⟩
              rcases List.mem_append.mp hx with hx | hx
              · exact .inl hx
              · simp only [List.mem_singleton] at hx
                subst hx; exact .inr hb
            · obtain ⟨p, _, h7, h8, h9⟩ := h5 r hr'
              refine ⟨p, h7, by simp at h8; omega, fun x hx => ?_⟩
              rcases h9 x hx with hx | hx
              · rcases List.mem_append.mp hx with hx | hx
                · exact .inl hx
                · simp only [List.mem_singleton] at hx
                  subst hx; exact .inr hb
              · exact .inr hx
          · refine List.pairwise_cons.mpr ⟨fun r hr' => ?_, h6⟩
            obtain ⟨p, hp, h7, _⟩ := h5 r hr'
            rw [h7]
            exact lt_append _ hp
          · intro root hreach r hr'
            have hgr := hreach b rfl
            rcases List.mem_cons.mp hr' with rfl | hr'
            · exact hgr
            · exact hg root hgr r hr'
        · have hc : child env w pr path (.hash (env.K b)) = some none := by
            unfold child Walker.fetch
            rw [ha]
            simp [h1, hp]
          refine ⟨none, [], hc, .nil, .nil fun p b' h _ => ?_, fun _ _ _ hq => (nomatch hq)⟩
          generalize hh : env.K b = kb at h
          cases h with
          | here b₂ hb₂ =>
            obtain ⟨_, h9⟩ := mem_available.mp hb₂
            rw [← hh, h1] at h9; cases h9
          | hash b₂ n₂ _ _ hb₂ hd₂ h7 =>
            obtain ⟨_, h9⟩ := mem_available.mp hb₂
            rw [← hh, h1] at h9; cases h9

end Verif.TrieWalker
