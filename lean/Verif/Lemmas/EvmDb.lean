import Verif.Props.EvmDbSpec
import Verif.Lemmas.Distance
import Verif.Lemmas.Bytes

namespace Verif.EvmDb
open Verif.Trie

variable {lib : Lib} {Holds : Nodes → (Id → Option Bytes) → Prop} {s : Scope}

theorem addressBytes_inj {a b : Address} (h : addressBytes a = addressBytes b) : a = b := by
  apply BitVec.eq_of_toNat_eq
  exact toBe_inj (by have := a.isLt; omega) (by have := b.isLt; omega) h

theorem addressBytes_length (a : Address) : (addressBytes a).length = 20 := by simp [addressBytes]

theorem numberBytes_inj {a b : UInt64} (h : numberBytes a = numberBytes b) : a = b := by
  apply UInt64.toNat_inj.mp
  exact toBe_inj (by have := a.toNat_lt; omega) (by have := b.toNat_lt; omega) h

theorem numberBytes_length (a : UInt64) : (numberBytes a).length = 32 := by simp [numberBytes]

theorem fromBe_numberBytes (n : UInt64) : fromBe (numberBytes n) = n.toNat := by
  have := n.toNat_lt
  rw [numberBytes, fromBe_toBe_of_lt (by omega)]

attribute [local irreducible] Id.bytes addressBytes numberBytes

/-! ## Keys -/

theorem mem_nil : [] ∈ s.preimages := by simp [Scope.preimages]

theorem mem_address {a : Address} (h : a ∈ s.addresses) : addressBytes a ∈ s.preimages := by
  simp only [Scope.preimages, List.mem_cons, List.mem_append, List.mem_map]
  exact Or.inr (Or.inl (Or.inl (Or.inl (Or.inl ⟨a, h, rfl⟩))))

theorem mem_slot {i : Word} (h : i ∈ s.slots) : Id.bytes i ∈ s.preimages := by
  simp only [Scope.preimages, List.mem_cons, List.mem_append, List.mem_map]
  exact Or.inr (Or.inl (Or.inl (Or.inl (Or.inr ⟨i, h, rfl⟩))))

theorem mem_code {c : Bytes} (h : c ∈ s.codes) : c ∈ s.preimages := by
  simp only [Scope.preimages, List.mem_cons, List.mem_append]
  exact Or.inr (Or.inl (Or.inl (Or.inr h)))

theorem mem_node {c : Bytes} (h : c ∈ s.nodes) : c ∈ s.preimages := by
  simp only [Scope.preimages, List.mem_cons, List.mem_append]
  exact Or.inr (Or.inl (Or.inr h))

theorem mem_number {n : UInt64} (h : n ∈ s.numbers) : numberBytes n ∈ s.preimages := by
  simp only [Scope.preimages, List.mem_cons, List.mem_append, List.mem_map]
  exact Or.inr (Or.inr ⟨n, h, rfl⟩)

/-- The assumptions on a scope. -/
structure Clear (lib : Lib) (s : Scope) : Prop where
  collisions : s.NoCollision lib
  nodes : s.LargeNodes
  codes : s.CodesApart

namespace Clear
variable (hc : Clear lib s)
include hc

theorem address {a b : Address} (ha : a ∈ s.addresses) (hb : b ∈ s.addresses)
    (h : lib.K (addressBytes a) = lib.K (addressBytes b)) : a = b :=
  addressBytes_inj (hc.collisions.1 _ (mem_address ha) _ (mem_address hb) h)

theorem slot {a b : Word} (ha : a ∈ s.slots) (hb : b ∈ s.slots) (h : lib.K (Id.bytes a) = lib.K (Id.bytes b)) : a = b :=
  Id.bytes_injective (hc.collisions.1 _ (mem_slot ha) _ (mem_slot hb) h)

theorem number {a b : UInt64} (ha : a ∈ s.numbers) (hb : b ∈ s.numbers)
    (h : lib.K (numberBytes a) = lib.K (numberBytes b)) : a = b :=
  numberBytes_inj (hc.collisions.1 _ (mem_number ha) _ (mem_number hb) h)

theorem address_number {a : Address} {n : UInt64} (ha : a ∈ s.addresses) (hn : n ∈ s.numbers) :
    lib.K (addressBytes a) ≠ lib.K (numberBytes n) := by
  intro h
  have := congrArg List.length (hc.collisions.1 _ (mem_address ha) _ (mem_number hn) h)
  rw [addressBytes_length, numberBytes_length] at this
  omega

theorem address_code {a : Address} {c : Bytes} (ha : a ∈ s.addresses) (hm : c ∈ s.codes ∨ c = []) :
    lib.K (addressBytes a) ≠ lib.K c := by
  intro h
  rcases hm with hm | rfl
  · exact (hc.codes c hm).1 a ha (hc.collisions.1 _ (mem_address ha) _ (mem_code hm) h).symm
  · have := congrArg List.length (hc.collisions.1 _ (mem_address ha) _ mem_nil h)
    rw [addressBytes_length] at this
    simp at this

theorem number_code {n : UInt64} {c : Bytes} (hn : n ∈ s.numbers) (hm : c ∈ s.codes ∨ c = []) :
    lib.K (numberBytes n) ≠ lib.K c := by
  intro h
  rcases hm with hm | rfl
  · exact (hc.codes c hm).2 n hn (hc.collisions.1 _ (mem_number hn) _ (mem_code hm) h).symm
  · have := congrArg List.length (hc.collisions.1 _ (mem_number hn) _ mem_nil h)
    rw [numberBytes_length] at this
    simp at this

theorem node_address {n : Bytes} {a : Address} (hn : n ∈ s.nodes) (ha : a ∈ s.addresses) :
    lib.K n ≠ lib.K (addressBytes a) := by
  intro h
  have := congrArg List.length (hc.collisions.1 _ (mem_node hn) _ (mem_address ha) h)
  have := hc.nodes n hn
  rw [addressBytes_length] at *
  omega

theorem node_number {n : Bytes} {a : UInt64} (hn : n ∈ s.nodes) (ha : a ∈ s.numbers) :
    lib.K n ≠ lib.K (numberBytes a) := by
  intro h
  have := congrArg List.length (hc.collisions.1 _ (mem_node hn) _ (mem_number ha) h)
  have := hc.nodes n hn
  rw [numberBytes_length] at *
  omega

theorem zero {x : Bytes} (hx : x ∈ s.preimages) : lib.K x ≠ 0 := hc.collisions.2 x hx

end Clear

/-! ## Database -/

theorem put_same (kv : Kv) (k v : Bytes) : kv.put k v k = some v := by simp [Kv.put]

theorem put_other (kv : Kv) {k k' : Bytes} (v : Bytes) (h : k' ≠ k) : kv.put k v k' = kv k' := by simp [Kv.put, h]

theorem delete_same (kv : Kv) (k : Bytes) : kv.delete k k = none := by simp [Kv.delete]

theorem delete_other (kv : Kv) {k k' : Bytes} (h : k' ≠ k) : kv.delete k k' = kv k' := by simp [Kv.delete, h]

theorem bytes_ne {a b : Id} (h : a ≠ b) : a.bytes ≠ b.bytes := fun e => h (Id.bytes_injective e)

/-- Two databases have the same long keys. -/
theorem nodesOf_congr {kv kv' : Kv} (h : ∀ k, k.length ≠ 32 → kv' k = kv k) (a : Id) :
    nodesOf lib kv' a = nodesOf lib kv a := by
  funext x
  simp only [nodesOf]
  split
  · rfl
  · exact h _ (by simp [Id.bytes_length])

theorem put_long (kv : Kv) (a : Id) (v : Bytes) : ∀ k, k.length ≠ 32 → kv.put a.bytes v k = kv k :=
  fun k h => put_other kv v (fun e => h (by rw [e, Id.bytes_length]))

theorem delete_long (kv : Kv) (a : Id) : ∀ k, k.length ≠ 32 → kv.delete a.bytes k = kv k :=
  fun k h => delete_other kv (fun e => h (by rw [e, Id.bytes_length]))

theorem insertNode_short (a : Id) (kv : Kv) (e : Id × Bytes) {k : Bytes} (h : k.length = 32) :
    insertNode lib a kv e k = kv k := by
  simp only [insertNode]
  split
  · rfl
  · exact put_other kv _ (fun e => by rw [e] at h; simp [Id.bytes_length] at h)

theorem removeNode_short (a : Id) (kv : Kv) (e : Id) {k : Bytes} (h : k.length = 32) :
    removeNode lib a kv e k = kv k := by
  simp only [removeNode]
  split
  · rfl
  · exact delete_other kv (fun e => by rw [e] at h; simp [Id.bytes_length] at h)

theorem long_ne {a b h h' : Id} (hab : a ≠ b) : a.bytes ++ h.bytes ≠ b.bytes ++ h'.bytes := fun e =>
  bytes_ne hab (List.append_inj_left e (by simp [Id.bytes_length]))

theorem insertNode_other {a b : Id} (hab : a ≠ b) (kv : Kv) (e : Id × Bytes) :
    nodesOf lib (insertNode lib a kv e) b = nodesOf lib kv b := by
  funext x
  simp only [nodesOf]
  split
  · rfl
  · simp only [insertNode]
    split
    · rfl
    · exact put_other kv _ (long_ne (Ne.symm hab))

theorem removeNode_other {a b : Id} (hab : a ≠ b) (kv : Kv) (e : Id) :
    nodesOf lib (removeNode lib a kv e) b = nodesOf lib kv b := by
  funext x
  simp only [nodesOf]
  split
  · rfl
  · simp only [removeNode]
    split
    · rfl
    · exact delete_other kv (long_ne (Ne.symm hab))

theorem insertNode_same {a : Id} (kv : Kv) (e : Id × Bytes) (he : e.1 ≠ lib.K []) :
    nodesOf lib (insertNode lib a kv e) a = fun h => if h = e.1 then some e.2 else nodesOf lib kv a h := by
  funext x
  simp only [nodesOf, insertNode, if_neg he]
  by_cases hx : x = lib.K []
  · rw [if_pos hx, if_pos hx, if_neg (fun e' => he (by rw [← e', hx]))]
  · rw [if_neg hx, if_neg hx]
    by_cases h : x = e.1
    · rw [if_pos h, h, put_same]
    · rw [if_neg h, put_other]
      exact fun e' => h (Id.bytes_injective (List.append_cancel_left e'))

theorem removeNode_same {a : Id} (kv : Kv) (e : Id) (he : e ≠ lib.K []) :
    nodesOf lib (removeNode lib a kv e) a = fun h => if h = e then none else nodesOf lib kv a h := by
  funext x
  simp only [nodesOf, removeNode, if_neg he]
  by_cases hx : x = lib.K []
  · rw [if_pos hx, if_pos hx, if_neg (fun e' => he (by rw [← e', hx]))]
  · rw [if_neg hx, if_neg hx]
    by_cases h : x = e
    · rw [if_pos h, h, delete_same]
    · rw [if_neg h, delete_other]
      exact fun e' => h (Id.bytes_injective (List.append_cancel_left e'))

theorem insert_fold_same {a : Id} : ∀ (l : List (Id × Bytes)) (kv : Kv), (∀ e ∈ l, e.1 ≠ lib.K []) →
    nodesOf lib (l.foldl (insertNode lib a) kv) a =
      l.foldl (fun n e h => if h = e.1 then some e.2 else n h) (nodesOf lib kv a)
  | [], _, _ => rfl
  | e :: l, kv, h => by
    rw [List.foldl_cons, List.foldl_cons, insert_fold_same l _ (fun e he => h e (List.mem_cons_of_mem _ he)),
      insertNode_same kv e (h e List.mem_cons_self)]

theorem remove_fold_same {a : Id} : ∀ (l : List Id) (kv : Kv), (∀ e ∈ l, e ≠ lib.K []) →
    nodesOf lib (l.foldl (removeNode lib a) kv) a = l.foldl (fun n r h => if h = r then none else n h) (nodesOf lib kv a)
  | [], _, _ => rfl
  | e :: l, kv, h => by
    rw [List.foldl_cons, List.foldl_cons, remove_fold_same l _ (fun e he => h e (List.mem_cons_of_mem _ he)),
      removeNode_same kv e (h e List.mem_cons_self)]

theorem insert_fold_other {a b : Id} (hab : a ≠ b) : ∀ (l : List (Id × Bytes)) (kv : Kv),
    nodesOf lib (l.foldl (insertNode lib a) kv) b = nodesOf lib kv b
  | [], _ => rfl
  | e :: l, kv => by rw [List.foldl_cons, insert_fold_other hab l, insertNode_other hab]

theorem remove_fold_other {a b : Id} (hab : a ≠ b) : ∀ (l : List Id) (kv : Kv),
    nodesOf lib (l.foldl (removeNode lib a) kv) b = nodesOf lib kv b
  | [], _ => rfl
  | e :: l, kv => by rw [List.foldl_cons, remove_fold_other hab l, removeNode_other hab]

theorem insert_fold_short {a : Id} {k : Bytes} (hk : k.length = 32) : ∀ (l : List (Id × Bytes)) (kv : Kv),
    l.foldl (insertNode lib a) kv k = kv k
  | [], _ => rfl
  | e :: l, kv => by rw [List.foldl_cons, insert_fold_short hk l, insertNode_short a kv e hk]

theorem remove_fold_short {a : Id} {k : Bytes} (hk : k.length = 32) : ∀ (l : List Id) (kv : Kv),
    l.foldl (removeNode lib a) kv k = kv k
  | [], _ => rfl
  | e :: l, kv => by rw [List.foldl_cons, remove_fold_short hk l, removeNode_short a kv e hk]

/-! ## Invariant -/

/-- The record of an account. -/
def record (lib : Lib) (i : Option Info) (root : Id) : Option Bytes :=
  i.map fun i => lib.encodeAccount ⟨i.nonce, i.balance, root, i.codeHash⟩

/-- One account is represented. -/
def Good (lib : Lib) (Holds : Nodes → (Id → Option Bytes) → Prop) (s : Scope) (db : Db) (w : World) (a : Address) : Prop :=
  ∃ m, SlotMap lib s (w.storage a) m ∧ Holds (nodesOf lib db.kv (lib.K (addressBytes a))) m ∧
    db.kv (lib.K (addressBytes a)).bytes = record lib (w.account a) (lib.rootOf m) ∧
    db.trie (lib.K (addressBytes a)) = record lib (w.account a) (lib.rootOf m)

structure Inv (lib : Lib) (Holds : Nodes → (Id → Option Bytes) → Prop) (s : Scope) (db : Db) (w : World) : Prop where
  good : ∀ a ∈ s.addresses, Good lib Holds s db w a
  gone : ∀ a, w.account a = none → ∀ i, w.storage a i = 0
  only : ∀ h, db.trie h ≠ none → ∃ a ∈ s.addresses, h = lib.K (addressBytes a)
  code : ∀ h c, w.code h = some c → db.kv h.bytes = some c ∧ ((c ∈ s.codes ∨ c = []) ∧ h = lib.K c ∨ h = 0)
  block : ∀ n ∈ s.numbers, db.kv (lib.K (numberBytes n)).bytes = (w.blockHash n).map Id.bytes

/-- A change of one account only. -/
theorem Inv.account_change {db db' : Db} {w w' : World} {a : Address} (hc : Clear lib s) (h : Inv lib Holds s db w)
    (ha : a ∈ s.addresses)
    (hshort : ∀ k : Id, k ≠ lib.K (addressBytes a) → db'.kv k.bytes = db.kv k.bytes)
    (hnodes : ∀ b : Id, b ≠ lib.K (addressBytes a) → nodesOf lib db'.kv b = nodesOf lib db.kv b)
    (htrie : ∀ b, b ≠ lib.K (addressBytes a) → db'.trie b = db.trie b)
    (hacc : ∀ b, b ≠ a → w'.account b = w.account b) (hst : ∀ b, b ≠ a → w'.storage b = w.storage b)
    (hcode : w'.code = w.code) (hblock : w'.blockHash = w.blockHash)
    (hgone : w'.account a = none → ∀ i, w'.storage a i = 0) (hgood : Good lib Holds s db' w' a) :
    Inv lib Holds s db' w' where
  good := by
    intro b hb
    by_cases e : b = a
    · subst e; exact hgood
    · have hk : lib.K (addressBytes b) ≠ lib.K (addressBytes a) := fun h => e (hc.address hb ha h)
      obtain ⟨m, h1, h2, h3, h4⟩ := h.good b hb
      refine ⟨m, ?_, ?_, ?_, ?_⟩
      · rw [hst b e]; exact h1
      · rw [hnodes _ hk]; exact h2
      · rw [hshort _ hk, hacc b e]; exact h3
      · rw [htrie _ hk, hacc b e]; exact h4
  gone := by
    intro b hb
    by_cases e : b = a
    · subst e; exact hgone hb
    · rw [hst b e]; exact h.gone b (by rw [← hacc b e]; exact hb)
  only := by
    intro x hx
    by_cases e : x = lib.K (addressBytes a)
    · exact ⟨a, ha, e⟩
    · exact h.only x (by rw [← htrie x e]; exact hx)
  code := by
    intro x c hx
    rw [hcode] at hx
    obtain ⟨h1, h2⟩ := h.code x c hx
    refine ⟨?_, h2⟩
    rw [hshort x ?_]; exact h1
    rcases h2 with ⟨h2, rfl⟩ | rfl
    · exact (hc.address_code ha h2).symm
    · exact (hc.zero (mem_address ha)).symm
  block := by
    intro n hn
    rw [hblock, hshort _ (hc.address_number ha hn).symm]
    exact h.block n hn

theorem fetch_of_record (hl : lib.Sound Holds) {db : Db} {k : Id} {i : Option Info} {root : Id}
    (h : db.kv k.bytes = record lib i root) :
    fetchAccount lib db k = some (i.map fun i => ⟨i.nonce, i.balance, root, i.codeHash⟩) := by
  simp only [fetchAccount, h]
  cases i with
  | none => rfl
  | some i => simp [record, hl.account]

theorem slotMap_zero : SlotMap lib s (fun _ => 0) (fun _ => none) :=
  ⟨fun i _ => by simp, fun h hh => absurd rfl hh⟩

/-- A map with content, or the empty one. -/
theorem content_cases (m : Id → Option Bytes) : (∃ k, m k ≠ none) ∨ m = fun _ => none := by
  by_cases h : ∃ k, m k ≠ none
  · exact Or.inl h
  · right
    funext k
    apply Classical.byContradiction
    intro hk
    exact h ⟨k, hk⟩

theorem root_eq_iff (hl : lib.Sound Holds) {nodes : Nodes} {m : Id → Option Bytes} (hm : Holds nodes m) :
    lib.rootOf m = lib.emptyRoot ↔ m = fun _ => none := by
  constructor
  · intro h
    rcases content_cases m with hk | hk
    · exact absurd h (hl.otherRoot nodes m hm hk)
    · exact hk
  · rintro rfl; exact hl.emptyRoot

theorem slotMap_none {st : Word → Word} {m : Id → Option Bytes} (h : SlotMap lib s st m) (hst : ∀ i, st i = 0) :
    m = fun _ => none := by
  funext k
  apply Classical.byContradiction
  intro hk
  obtain ⟨i, hi, rfl⟩ := h.2 k hk
  rw [h.1 i hi, if_pos (hst i)] at hk
  exact hk rfl

/-! ## Accounts -/

theorem putAccount_good (db : Db) (a : Id) (x : Account) :
    (db.putAccount lib a x).kv a.bytes = some (lib.encodeAccount x) ∧
    (db.putAccount lib a x).trie a = some (lib.encodeAccount x) ∧
    (∀ k : Id, k ≠ a → (db.putAccount lib a x).kv k.bytes = db.kv k.bytes) ∧
    (∀ b : Id, nodesOf lib (db.putAccount lib a x).kv b = nodesOf lib db.kv b) ∧
    ∀ b, b ≠ a → (db.putAccount lib a x).trie b = db.trie b := by
  refine ⟨put_same _ _ _, by simp [Db.putAccount], fun k hk => put_other _ _ (bytes_ne hk),
    fun b => nodesOf_congr (put_long _ _ _) b, fun b hb => by simp [Db.putAccount, hb]⟩

theorem commitAccount_inv (hl : lib.Sound Holds) (hc : Clear lib s) {db : Db} {w : World} (h : Inv lib Holds s db w)
    {a : Address} (ha : a ∈ s.addresses) (info : Info) :
    ∃ db', commitAccount lib db (lib.K (addressBytes a)) info = some db' ∧
      Inv lib Holds s db' (w.setAccount a (some info)) := by
  obtain ⟨m, h1, h2, h3, h4⟩ := h.good a ha
  have hf := fetch_of_record hl h3
  have key : commitAccount lib db (lib.K (addressBytes a)) info =
      some (db.putAccount lib (lib.K (addressBytes a)) ⟨info.nonce, info.balance, lib.rootOf m, info.codeHash⟩) := by
    simp only [commitAccount, hf]
    cases hi : w.account a with
    | some i => rfl
    | none =>
      have : m = fun _ => none := slotMap_none h1 (h.gone a hi)
      simp [this, hl.emptyRoot]
  refine ⟨_, key, ?_⟩
  obtain ⟨p1, p2, p3, p4, p5⟩ := putAccount_good (lib := lib) db (lib.K (addressBytes a))
    ⟨info.nonce, info.balance, lib.rootOf m, info.codeHash⟩
  refine h.account_change hc ha p3 (fun b _ => p4 b) p5 (fun b hb => by simp [World.setAccount, hb])
    (fun b hb => by simp [World.setAccount, hb]) rfl rfl (fun hn => by simp [World.setAccount] at hn) ⟨m, ?_, ?_, ?_, ?_⟩
  · simpa [World.setAccount] using h1
  · rw [p4]; exact h2
  · rw [p1]; simp [World.setAccount, record]
  · rw [p2]; simp [World.setAccount, record]

theorem wipe_fold (a : Id) (removed : List Id) (kv : Kv) :
    (∀ k : Id, removed.foldl (removeNode lib a) kv k.bytes = kv k.bytes) ∧
    ∀ b : Id, b ≠ a → nodesOf lib (removed.foldl (removeNode lib a) kv) b = nodesOf lib kv b :=
  ⟨fun k => remove_fold_short (Id.bytes_length k) _ _, fun _ hb => remove_fold_other (Ne.symm hb) _ _⟩

/-- Wiping the storage: the account gets the empty root, other data is as before. -/
theorem wipeTrie_ok (hl : lib.Sound Holds) {db : Db} {x : Account} {k : Id} {m : Id → Option Bytes}
    (hm : Holds (nodesOf lib db.kv k) m) (hx : x.storageRoot = lib.rootOf m) :
    ∃ db', wipeTrie lib db k x = some (db', { x with storageRoot := lib.emptyRoot }) ∧ db'.trie = db.trie ∧
      (∀ b : Id, db'.kv b.bytes = db.kv b.bytes) ∧
      ∀ b : Id, b ≠ k → nodesOf lib db'.kv b = nodesOf lib db.kv b := by
  by_cases e : x.storageRoot = lib.emptyRoot
  · refine ⟨db, ?_, rfl, fun _ => rfl, fun _ _ => rfl⟩
    rw [wipeTrie, if_pos e]
    cases x
    simp only at e
    subst e
    rfl
  · have hne : ∃ k, m k ≠ none := by
      rcases content_cases m with hk | hk
      · exact hk
      · subst hk; exact absurd (hx.trans hl.emptyRoot) e
    obtain ⟨removed, hr⟩ := hl.clear _ m hm hne
    refine ⟨{ db with kv := removed.foldl (removeNode lib k) db.kv }, ?_, rfl, (wipe_fold k removed db.kv).1,
      (wipe_fold k removed db.kv).2⟩
    rw [wipeTrie, if_neg e, hx, hr]
    rfl

theorem deleteAccount_inv (hl : lib.Sound Holds) (hc : Clear lib s) {db : Db} {w : World} (h : Inv lib Holds s db w)
    {a : Address} (ha : a ∈ s.addresses) :
    ∃ db', wipeAccountStorage lib db (lib.K (addressBytes a)) true = some db' ∧
      Inv lib Holds s db' (w.setAccount a none) := by
  obtain ⟨m, h1, h2, h3, h4⟩ := h.good a ha
  have hf := fetch_of_record hl h3
  cases hi : w.account a with
  | none =>
    refine ⟨db, by simp [wipeAccountStorage, hf, hi], ?_⟩
    have hz : w.storage a = fun _ => 0 := funext (h.gone a hi)
    refine h.account_change hc ha (fun _ _ => rfl) (fun _ _ => rfl) (fun _ _ => rfl)
      (fun b hb => by simp [World.setAccount, hb]) (fun b hb => by simp [World.setAccount, hb]) rfl rfl
      (fun _ i => by simp [World.setAccount]) ⟨m, ?_, h2, ?_, ?_⟩
    · rw [hz] at h1; simpa [World.setAccount] using h1
    · rw [h3, hi]; simp [World.setAccount]
    · rw [h4, hi]; simp [World.setAccount]
  | some i =>
    rw [hi] at hf
    obtain ⟨db', hw, g1, g2, g3⟩ := wipeTrie_ok (x := ⟨i.nonce, i.balance, lib.rootOf m, i.codeHash⟩) hl h2 rfl
    refine ⟨{ db' with
      kv := db'.kv.delete (lib.K (addressBytes a)).bytes
      trie := fun x => if x = lib.K (addressBytes a) then none else db'.trie x }, ?_, ?_⟩
    · simp only [wipeAccountStorage, hf, Option.map_some, hw, if_true]
    refine h.account_change hc ha (fun k hk => ?_) (fun b hb => ?_) (fun b hb => ?_)
      (fun b hb => by simp [World.setAccount, hb]) (fun b hb => by simp [World.setAccount, hb]) rfl rfl
      (fun _ i => by simp [World.setAccount]) ⟨fun _ => none, ?_, hl.empty _, ?_, ?_⟩
    · exact (delete_other _ (bytes_ne hk)).trans (g2 k)
    · exact (nodesOf_congr (delete_long _ _) b).trans (g3 b hb)
    · simp only [if_neg hb, g1]
    · simpa [World.setAccount] using slotMap_zero
    · simp [World.setAccount, record, delete_same]
    · simp [World.setAccount, record]

theorem wipe_inv (hl : lib.Sound Holds) (hc : Clear lib s) {db : Db} {w : World} (h : Inv lib Holds s db w)
    {a : Address} (ha : a ∈ s.addresses) :
    ∃ db', wipeAccountStorage lib db (lib.K (addressBytes a)) false = some db' ∧ Inv lib Holds s db' (w.wipe a) := by
  obtain ⟨m, h1, h2, h3, h4⟩ := h.good a ha
  have hf := fetch_of_record hl h3
  cases hi : w.account a with
  | none =>
    refine ⟨db, by simp [wipeAccountStorage, hf, hi], ?_⟩
    have hz : w.storage a = fun _ => 0 := funext (h.gone a hi)
    refine h.account_change hc ha (fun _ _ => rfl) (fun _ _ => rfl) (fun _ _ => rfl)
      (fun b hb => rfl) (fun b hb => by simp [World.wipe, hb]) rfl rfl
      (fun _ i => by simp [World.wipe]) ⟨m, ?_, h2, ?_, ?_⟩
    · rw [hz] at h1; simpa [World.wipe] using h1
    · rw [h3]; simp [World.wipe]
    · rw [h4]; simp [World.wipe]
  | some i =>
    rw [hi] at hf
    obtain ⟨db', hw, g1, g2, g3⟩ := wipeTrie_ok (x := ⟨i.nonce, i.balance, lib.rootOf m, i.codeHash⟩) hl h2 rfl
    refine ⟨db'.putAccount lib (lib.K (addressBytes a)) ⟨i.nonce, i.balance, lib.emptyRoot, i.codeHash⟩, ?_, ?_⟩
    · simp only [wipeAccountStorage, hf, Option.map_some, hw]; rfl
    obtain ⟨p1, p2, p3, p4, p5⟩ := putAccount_good (lib := lib) db' (lib.K (addressBytes a))
      ⟨i.nonce, i.balance, lib.emptyRoot, i.codeHash⟩
    refine h.account_change hc ha (fun k hk => (p3 k hk).trans (g2 k)) (fun b hb => (p4 b).trans (g3 b hb))
      (fun b hb => (p5 b hb).trans (by rw [g1])) (fun _ _ => rfl) (fun b hb => by simp [World.wipe, hb]) rfl rfl
      (fun _ i => by simp [World.wipe]) ⟨fun _ => none, ?_, hl.empty _, ?_, ?_⟩
    · simpa [World.wipe] using slotMap_zero
    · rw [p1, hl.emptyRoot]; simp [World.wipe, record, hi]
    · rw [p2, hl.emptyRoot]; simp [World.wipe, record, hi]

/-! ## Storage -/

theorem slotMap_set (hc : Clear lib s) : ∀ (slots : List (Word × Word)) (st : Word → Word) (m : Id → Option Bytes),
    SlotMap lib s st m → (∀ e ∈ slots, e.1 ∈ s.slots) →
    SlotMap lib s (slots.foldl (fun st e i => if i = e.1 then e.2 else st i) st)
      (applyChanges m (slots.map (slotEntry lib)))
  | [], _, _, h, _ => h
  | e :: slots, st, m, h, he => by
    rw [List.foldl_cons, List.map_cons, applyChanges, List.foldl_cons]
    refine slotMap_set hc slots _ _ ⟨fun i hi => ?_, fun x hx => ?_⟩ (fun e h => he e (List.mem_cons_of_mem _ h))
    · by_cases hie : i = e.1
      · subst hie; simp [slotEntry]
      · have : lib.K (Id.bytes i) ≠ lib.K (Id.bytes e.1) := fun hk => hie (hc.slot hi (he e List.mem_cons_self) hk)
        simp only [if_neg hie]
        exact Eq.trans (if_neg this) (h.1 i hi)
    · by_cases hxe : x = lib.K (Id.bytes e.1)
      · exact ⟨e.1, he e List.mem_cons_self, hxe⟩
      · exact h.2 x fun hn => hx (Eq.trans (if_neg hxe) hn)

theorem setSlot_fold (a : Address) : ∀ (slots : List (Word × Word)) (w : World),
    (slots.foldl (World.setSlot a) w).account = w.account ∧ (slots.foldl (World.setSlot a) w).code = w.code ∧
    (slots.foldl (World.setSlot a) w).blockHash = w.blockHash ∧
    (∀ b, b ≠ a → (slots.foldl (World.setSlot a) w).storage b = w.storage b) ∧
    (slots.foldl (World.setSlot a) w).storage a = slots.foldl (fun st e i => if i = e.1 then e.2 else st i) (w.storage a)
  | [], _ => ⟨rfl, rfl, rfl, fun _ _ => rfl, rfl⟩
  | e :: slots, w => by
    obtain ⟨h1, h2, h3, h4, h5⟩ := setSlot_fold a slots (w.setSlot a e)
    refine ⟨h1, h2, h3, fun b hb => ?_, ?_⟩
    · rw [List.foldl_cons, h4 b hb]; simp [World.setSlot, hb]
    · rw [List.foldl_cons, h5]; simp [World.setSlot]

theorem storageChanges_inv (hl : lib.Sound Holds) (hc : Clear lib s) {db : Db} {w : World} (h : Inv lib Holds s db w)
    {a : Address} (ha : a ∈ s.addresses) {slots : List (Word × Word)} (hs : ∀ e ∈ slots, e.1 ∈ s.slots) :
    ∃ db', commitStorageChanges lib db (lib.K (addressBytes a)) slots = some db' ∧
      Inv lib Holds s db' (slots.foldl (World.setSlot a)
        (if w.account a = none then w.setAccount a (some ⟨0, 0, lib.K []⟩) else w)) := by
  obtain ⟨m, h1, h2, h3, h4⟩ := h.good a ha
  have hf := fetch_of_record hl h3
  -- the account that is changed
  obtain ⟨i, hi⟩ : ∃ i : Info, i = (w.account a).getD ⟨0, 0, lib.K []⟩ := ⟨_, rfl⟩
  have hget : ((w.account a).map fun i => (⟨i.nonce, i.balance, lib.rootOf m, i.codeHash⟩ : Account)).getD
      ⟨0, 0, lib.emptyRoot, lib.K []⟩ = ⟨i.nonce, i.balance, lib.rootOf m, i.codeHash⟩ := by
    cases hw : w.account a with
    | some j => rw [hw] at hi; subst hi; rfl
    | none =>
      have : m = fun _ => none := slotMap_none h1 (h.gone a hw)
      rw [hw] at hi; subst hi
      simp [this, hl.emptyRoot]
  obtain ⟨d, hd, hroot, hholds, hins, hrem⟩ := hl.update (nodesOf lib db.kv (lib.K (addressBytes a))) m
    (slots.map (slotEntry lib)) h2
  obtain ⟨w', hw'⟩ : ∃ w', w' = if w.account a = none then w.setAccount a (some ⟨0, 0, lib.K []⟩) else w := ⟨_, rfl⟩
  have hacc : w'.account a = some i := by
    subst hw'; subst hi
    cases hw : w.account a with
    | none => simp [World.setAccount]
    | some j => simp [hw]
  have hst : w'.storage a = w.storage a := by
    subst hw'
    split
    · simp [World.setAccount]
    · rfl
  have hother : (∀ b, b ≠ a → w'.account b = w.account b) ∧ (∀ b, b ≠ a → w'.storage b = w.storage b) ∧
      w'.code = w.code ∧ w'.blockHash = w.blockHash := by
    subst hw'
    split
    · exact ⟨fun b hb => by simp [World.setAccount, hb], fun b hb => by simp [World.setAccount, hb], rfl, rfl⟩
    · exact ⟨fun _ _ => rfl, fun _ _ => rfl, rfl, rfl⟩
  rw [← hw']
  have hcall : ∃ db1 : Db, commitStorageChanges lib db (lib.K (addressBytes a)) slots =
        some (db1.putAccount lib (lib.K (addressBytes a)) ⟨i.nonce, i.balance, d.root, i.codeHash⟩) ∧
      db1.kv = d.removed.foldl (removeNode lib (lib.K (addressBytes a)))
        (d.inserted.foldl (insertNode lib (lib.K (addressBytes a))) db.kv) ∧ db1.trie = db.trie := by
    simp only [commitStorageChanges, hf, hget, hd]
    exact ⟨_, rfl, rfl, rfl⟩
  obtain ⟨db1, hrun, hkv, htr⟩ := hcall
  refine ⟨_, hrun, ?_⟩
  obtain ⟨p1, p2, p3, p4, p5⟩ := putAccount_good (lib := lib) db1 (lib.K (addressBytes a))
    ⟨i.nonce, i.balance, d.root, i.codeHash⟩
  obtain ⟨q1, q2, q3, q4, q5⟩ := setSlot_fold a slots w'
  refine h.account_change hc ha (fun k hk => ?_) (fun b hb => ?_) (fun b hb => (p5 b hb).trans (by rw [htr]))
    (fun b hb => by rw [q1]; exact hother.1 b hb) (fun b hb => (q4 b hb).trans (hother.2.1 b hb))
    (q2.trans hother.2.2.1) (q3.trans hother.2.2.2) (fun hn => by rw [q1, hacc] at hn; cases hn)
    ⟨applyChanges m (slots.map (slotEntry lib)), ?_, ?_, ?_, ?_⟩
  · rw [p3 k hk, hkv, remove_fold_short (Id.bytes_length k), insert_fold_short (Id.bytes_length k)]
  · rw [p4, hkv, remove_fold_other (Ne.symm hb), insert_fold_other (Ne.symm hb)]
  · rw [q5, hst]; exact slotMap_set hc slots _ _ h1 hs
  · rw [p4, hkv, remove_fold_same _ _ hrem, insert_fold_same _ _ hins]; exact hholds
  · rw [p1, q1, hacc, hroot]; rfl
  · rw [p2, q1, hacc, hroot]; rfl

/-! ## Operations -/

theorem foldlM_inv {α : Type} {P : α → Prop} {f : Db → α → Option Db} {g : World → α → World}
    (hstep : ∀ db w x, P x → Inv lib Holds s db w → ∃ db', f db x = some db' ∧ Inv lib Holds s db' (g w x)) :
    ∀ (l : List α) (db : Db) (w : World), (∀ x ∈ l, P x) → Inv lib Holds s db w →
      ∃ db', l.foldlM f db = some db' ∧ Inv lib Holds s db' (l.foldl g w)
  | [], db, w, _, h => ⟨db, rfl, h⟩
  | x :: l, db, w, hP, h => by
    obtain ⟨db1, h1, i1⟩ := hstep db w x (hP x List.mem_cons_self) h
    obtain ⟨db2, h2, i2⟩ := foldlM_inv hstep l db1 (g w x) (fun y hy => hP y (List.mem_cons_of_mem _ hy)) i1
    refine ⟨db2, ?_, i2⟩
    rw [List.foldlM_cons, h1]
    exact h2

theorem accountEntry_inv (hl : lib.Sound Holds) (hc : Clear lib s) (db : Db) (w : World) (e : Address × Option Info)
    (he : e.1 ∈ s.addresses) (h : Inv lib Holds s db w) :
    ∃ db', commitAccountEntry lib db e = some db' ∧ Inv lib Holds s db' (w.setAccount e.1 e.2) := by
  obtain ⟨a, i⟩ := e
  cases i with
  | some i => exact commitAccount_inv hl hc h he i
  | none => exact deleteAccount_inv hl hc h he

theorem storageEntry_inv (hl : lib.Sound Holds) (hc : Clear lib s) (db : Db) (w : World) (c : Changeset)
    (he : c.address ∈ s.addresses ∧ ∀ e ∈ c.slots, e.1 ∈ s.slots) (h : Inv lib Holds s db w) :
    ∃ db', commitStorageEntry lib db c = some db' ∧ Inv lib Holds s db' (w.change lib c) := by
  have h0 : ∃ db', (if c.wipe then wipeAccountStorage lib db (lib.K (addressBytes c.address)) false else some db) = some db' ∧
      Inv lib Holds s db' (if c.wipe then w.wipe c.address else w) := by
    cases c.wipe with
    | true => exact wipe_inv hl hc h he.1
    | false => exact ⟨db, rfl, h⟩
  obtain ⟨db1, e1, i1⟩ := h0
  simp only [commitStorageEntry, World.change, e1]
  by_cases hs : c.slots = []
  · rw [if_pos hs, if_pos hs]; exact ⟨db1, rfl, i1⟩
  · rw [if_neg hs, if_neg hs]; exact storageChanges_inv hl hc i1 he.1 he.2

theorem contract_inv (hc : Clear lib s) (db : Db) (w : World) (c : Id × Bytes)
    (he : c.1 = lib.K c.2 ∧ c.2 ∈ s.codes) (h : Inv lib Holds s db w) :
    Inv lib Holds s (commitContract db c) (w.deploy c) where
  good := by
    intro a ha
    obtain ⟨m, h1, h2, h3, h4⟩ := h.good a ha
    refine ⟨m, h1, ?_, ?_, h4⟩
    · exact (congrArg (Holds · m) (nodesOf_congr (put_long _ _ _) _)).mpr h2
    · refine Eq.trans (put_other _ _ (bytes_ne ?_)) h3
      rw [he.1]; exact hc.address_code ha (Or.inl he.2)
  gone := h.gone
  only := h.only
  code := by
    intro x d hx
    simp only [World.deploy] at hx
    by_cases e : x = c.1
    · rw [if_pos e] at hx
      cases hx
      exact ⟨by rw [e]; exact put_same _ _ _, Or.inl ⟨Or.inl he.2, e.trans he.1⟩⟩
    · rw [if_neg e] at hx
      obtain ⟨h1, h2⟩ := h.code x d hx
      exact ⟨(put_other _ _ (bytes_ne e)).trans h1, h2⟩
  block := by
    intro n hn
    refine Eq.trans (put_other _ _ (bytes_ne ?_)) (h.block n hn)
    rw [he.1]; exact hc.number_code hn (Or.inl he.2)

theorem contracts_inv (hc : Clear lib s) : ∀ (l : List (Id × Bytes)) (db : Db) (w : World),
    (∀ c ∈ l, c.1 = lib.K c.2 ∧ c.2 ∈ s.codes) → Inv lib Holds s db w →
    Inv lib Holds s (l.foldl commitContract db) (l.foldl World.deploy w)
  | [], _, _, _, h => h
  | c :: l, db, w, hP, h =>
    contracts_inv hc l _ _ (fun c h => hP c (List.mem_cons_of_mem _ h)) (contract_inv hc db w c (hP c List.mem_cons_self) h)

theorem bundle_inv (hl : lib.Sound Holds) (hc : Clear lib s) {db : Db} {w : World} (h : Inv lib Holds s db w) {b : Bundle}
    (hb : s.Covers lib (.bundle b)) :
    ∃ db', commitBundle lib db b = some db' ∧ Inv lib Holds s db' (w.commit lib b) := by
  obtain ⟨db1, e1, i1⟩ := foldlM_inv (P := fun e => e.1 ∈ s.addresses) (f := commitAccountEntry lib)
    (g := fun w e => w.setAccount e.1 e.2) (accountEntry_inv hl hc) b.accounts db w hb.1 h
  obtain ⟨db2, e2, i2⟩ := foldlM_inv (P := fun c => c.address ∈ s.addresses ∧ ∀ e ∈ c.slots, e.1 ∈ s.slots)
    (f := commitStorageEntry lib) (g := World.change lib) (storageEntry_inv hl hc) b.storage _ _ hb.2.2
    (contracts_inv hc b.contracts db1 _ hb.2.1 i1)
  refine ⟨db2, ?_, i2⟩
  simp only [commitBundle, e1]
  exact e2

theorem genesis_inv (hl : lib.Sound Holds) (hc : Clear lib s) : ∀ (alloc : List (Address × Word)) (db : Db) (w : World),
    (∀ e ∈ alloc, e.1 ∈ s.addresses) → Inv lib Holds s db w → Inv lib Holds s (genesis lib db alloc) (w.genesis lib alloc)
  | [], _, _, _, h => h
  | e :: alloc, db, w, hP, h => by
    refine genesis_inv hl hc alloc _ _ (fun c h => hP c (List.mem_cons_of_mem _ h)) ?_
    obtain ⟨p1, p2, p3, p4, p5⟩ := putAccount_good (lib := lib) db (lib.K (addressBytes e.1))
      ⟨0, e.2, lib.emptyRoot, lib.K []⟩
    refine h.account_change hc (hP e List.mem_cons_self) p3 (fun b _ => p4 b) p5
      (fun b hb => by simp [World.setAccount, World.wipe, hb]) (fun b hb => by simp [World.setAccount, World.wipe, hb]) rfl rfl
      (fun _ i => by simp [World.wipe]) ⟨fun _ => none, ?_, hl.empty _, ?_, ?_⟩
    · simpa [World.wipe] using slotMap_zero
    · rw [p1, hl.emptyRoot]; simp [World.wipe, World.setAccount, record]
    · rw [p2, hl.emptyRoot]; simp [World.wipe, World.setAccount, record]

theorem node_put_inv (hc : Clear lib s) {db : Db} {w : World} (h : Inv lib Holds s db w) {n : Bytes} (hn : n ∈ s.nodes) :
    Inv lib Holds s { db with kv := db.kv.put (lib.K n).bytes n } w where
  good := by
    intro a ha
    obtain ⟨m, h1, h2, h3, h4⟩ := h.good a ha
    refine ⟨m, h1, ?_, ?_, h4⟩
    · exact (congrArg (Holds · m) (nodesOf_congr (put_long _ _ _) _)).mpr h2
    · exact Eq.trans (put_other _ _ (bytes_ne (hc.node_address hn ha).symm)) h3
  gone := h.gone
  only := h.only
  code := by
    intro x d hx
    obtain ⟨h1, h2⟩ := h.code x d hx
    refine ⟨?_, h2⟩
    by_cases e : x = lib.K n
    · have : n = d := by
        rcases h2 with ⟨h2, h3⟩ | h2
        · rcases h2 with h2 | h2
          · exact hc.collisions.1 _ (mem_node hn) _ (mem_code h2) (e.symm.trans h3)
          · subst h2; exact hc.collisions.1 _ (mem_node hn) _ mem_nil (e.symm.trans h3)
        · exact absurd (e.symm.trans h2) (hc.zero (mem_node hn))
      subst this
      rw [e]; exact put_same _ _ _
    · exact (put_other _ _ (bytes_ne e)).trans h1
  block := by
    intro m hm
    exact Eq.trans (put_other _ _ (bytes_ne (hc.node_number hn hm).symm)) (h.block m hm)

theorem trie_inv (hc : Clear lib s) : ∀ (nodes : List Bytes) (db : Db) (w : World), (∀ n ∈ nodes, n ∈ s.nodes) →
    Inv lib Holds s db w → Inv lib Holds s (commitTrie lib db nodes).2 w
  | [], _, _, _, h => h
  | n :: nodes, _, w, hP, h =>
    trie_inv hc nodes _ w (fun c h => hP c (List.mem_cons_of_mem _ h)) (node_put_inv hc h (hP n List.mem_cons_self))

theorem block_inv (hc : Clear lib s) {db : Db} {w : World} (h : Inv lib Holds s db w) {n : UInt64} {x : Id}
    (hn : n ∈ s.numbers) (hn' : n ≥ 256 → n - 256 ∈ s.numbers) :
    Inv lib Holds s (manageBlockHash lib db n x) (w.block n x) := by
  have hlong : ∀ k, k.length ≠ 32 → (manageBlockHash lib db n x).kv k = db.kv k := by
    intro k hk
    simp only [manageBlockHash]
    split
    · rw [delete_long _ _ k hk, put_long _ _ _ k hk]
    · rw [put_long _ _ _ k hk]
  have hshort : ∀ k : Id, k ≠ lib.K (numberBytes n) → (n ≥ 256 → k ≠ lib.K (numberBytes (n - 256))) →
      (manageBlockHash lib db n x).kv k.bytes = db.kv k.bytes := by
    intro k h1 h2
    simp only [manageBlockHash]
    split
    · rw [delete_other _ (bytes_ne (h2 (by assumption))), put_other _ _ (bytes_ne h1)]
    · rw [put_other _ _ (bytes_ne h1)]
  refine ⟨fun a ha => ?_, h.gone, h.only, fun y d hy => ?_, fun m hm => ?_⟩
  · obtain ⟨m, h1, h2, h3, h4⟩ := h.good a ha
    refine ⟨m, h1, ?_, ?_, h4⟩
    · rw [nodesOf_congr hlong]; exact h2
    · rw [hshort _ (hc.address_number ha hn) (fun g => hc.address_number ha (hn' g))]; exact h3
  · obtain ⟨h1, h2⟩ := h.code y d hy
    refine ⟨?_, h2⟩
    rw [hshort]; exact h1
    · rcases h2 with ⟨h2, rfl⟩ | rfl
      · exact (hc.number_code hn h2).symm
      · exact (hc.zero (mem_number hn)).symm
    · intro g
      rcases h2 with ⟨h2, rfl⟩ | rfl
      · exact (hc.number_code (hn' g) h2).symm
      · exact (hc.zero (mem_number (hn' g))).symm
  · simp only [World.block]
    by_cases g : n ≥ 256 ∧ m = n - 256
    · rw [if_pos g]
      obtain ⟨g1, g2⟩ := g
      simp only [manageBlockHash, if_pos g1, g2, delete_same]
      rfl
    · rw [if_neg g]
      by_cases e : m = n
      · subst e
        rw [if_pos rfl]
        simp only [manageBlockHash]
        split
        · rename_i g1
          rw [delete_other _ (bytes_ne (fun k => g ⟨g1, hc.number hm (hn' g1) k⟩)), put_same]; rfl
        · rw [put_same]; rfl
      · rw [if_neg e, hshort _ (fun k => e (hc.number hm hn k)) (fun g1 k => g ⟨g1, hc.number hm (hn' g1) k⟩)]
        exact h.block m hm

theorem initial_inv (hl : lib.Sound Holds) (hc : Clear lib s) (c : Bool) :
    Inv lib Holds s (initial lib c) (World.initial lib) := by
  have hkv : ∀ k : Id, k ≠ 0 → k ≠ lib.K [] → (initial lib c).kv k.bytes = none := by
    intro k h1 h2
    simp only [initial]
    rw [put_other _ _ (bytes_ne h1), put_other _ _ (bytes_ne h2)]
  refine ⟨fun a ha => ⟨fun _ => none, slotMap_zero, hl.empty _, ?_, rfl⟩, fun _ _ _ => rfl, fun h hh => absurd rfl hh, ?_, ?_⟩
  · exact hkv _ (hc.zero (mem_address ha)) (hc.address_code ha (Or.inr rfl))
  · intro x d hx
    simp only [World.initial] at hx
    split at hx
    · rename_i hor
      cases hx
      have hk0 : lib.K [] ≠ 0 := hc.zero mem_nil
      rcases hor with rfl | rfl
      · refine ⟨?_, Or.inl ⟨Or.inr rfl, rfl⟩⟩
        simp only [initial]
        rw [put_other _ _ (bytes_ne hk0), put_same]
      · exact ⟨put_same _ _ _, Or.inr rfl⟩
    · cases hx
  · intro n hn
    exact hkv _ (hc.zero (mem_number hn)) (hc.number_code hn (Or.inr rfl))

theorem step_inv (hl : lib.Sound Holds) (hc : Clear lib s) {db : Db} {w : World} (h : Inv lib Holds s db w) {op : Op}
    (ho : s.Covers lib op) : ∃ db', step lib db op = some db' ∧ Inv lib Holds s db' (w.step lib op) := by
  cases op with
  | genesis alloc => exact ⟨_, rfl, genesis_inv hl hc alloc db w ho h⟩
  | bundle b => exact bundle_inv hl hc h ho
  | trie nodes => exact ⟨_, rfl, trie_inv hc nodes db w ho h⟩
  | block n x => exact ⟨_, rfl, block_inv hc h ho.1 ho.2⟩
  | clearCache => exact ⟨_, rfl, ⟨h.good, h.gone, h.only, h.code, h.block⟩⟩

theorem run_inv (hl : lib.Sound Holds) (hc : Clear lib s) (c : Bool) {ops : List Op} (ho : ∀ op ∈ ops, s.Covers lib op) :
    ∃ db, run lib c ops = some db ∧ Inv lib Holds s db (world lib ops) :=
  foldlM_inv (P := fun op => s.Covers lib op) (f := step lib) (g := World.step lib)
    (fun _ _ _ hop h => step_inv hl hc h hop) ops _ _ ho (initial_inv hl hc c)

/-! ## Reads -/

theorem Inv.basic (hl : lib.Sound Holds) {db : Db} {w : World} (h : Inv lib Holds s db w) {a : Address}
    (ha : a ∈ s.addresses) : basic lib db a = some (w.account a) := by
  obtain ⟨m, h1, h2, h3, h4⟩ := h.good a ha
  simp only [EvmDb.basic, fetch_of_record hl h3]
  cases w.account a <;> rfl

theorem Inv.storage (hl : lib.Sound Holds) {db : Db} {w : World} (h : Inv lib Holds s db w) {a : Address}
    (ha : a ∈ s.addresses) {i : Word} (hi : i ∈ s.slots) :
    storage lib db a i = if w.account a = none then none else some (w.storage a i) := by
  obtain ⟨m, h1, h2, h3, h4⟩ := h.good a ha
  simp only [EvmDb.storage, fetch_of_record hl h3]
  cases w.account a with
  | none => rfl
  | some x =>
    simp only [Option.map_some, reduceCtorEq, if_false]
    by_cases e : lib.rootOf m = lib.emptyRoot
    · simp only [if_pos e]
      have hm := (root_eq_iff hl h2).mp e
      have := h1.1 i hi
      rw [hm] at this
      by_cases hz : w.storage a i = 0
      · rw [hz]
      · rw [if_neg hz] at this; cases this
    · simp only [if_neg e]
      have hne : ∃ k, m k ≠ none := by
        rcases content_cases m with hk | hk
        · exact hk
        · exact absurd ((root_eq_iff hl h2).mpr hk) e
      rw [hl.get _ m h2 hne, h1.1 i hi]
      by_cases hz : w.storage a i = 0
      · rw [if_pos hz, hz]
      · rw [if_neg hz]; exact hl.word _

theorem Inv.blockHash {db : Db} {w : World} (h : Inv lib Holds s db w) {n : UInt64} (hn : n ∈ s.numbers) :
    blockHash lib db n = w.blockHash n := by
  simp only [EvmDb.blockHash, h.block n hn]
  cases w.blockHash n with
  | none => rfl
  | some x =>
    simp only [Option.map_some, Id.bytes_length, if_true, Id.fromBe_bytes, BitVec.ofNat_toNat]
    simp

theorem Inv.stateMap {db : Db} {w : World} (h : Inv lib Holds s db w) : StateMap lib s w db.trie := by
  refine ⟨fun a ha => ?_, h.only⟩
  obtain ⟨m, h1, h2, h3, h4⟩ := h.good a ha
  exact ⟨m, h1, h4⟩

/-! ## State trie and window -/

/-- Two contents of the state trie for the same state are equal. -/
theorem stateMap_unique (lib : Lib) (s : Scope) (w : World) (m m' : Id → Option Bytes) (h : StateMap lib s w m)
    (h' : StateMap lib s w m') : m = m' := by
  have hslots : ∀ st x y, SlotMap lib s st x → SlotMap lib s st y → ∀ k, y k = none → x k = none := by
    intro st x y hx hy k hk
    apply Classical.byContradiction
    intro hne
    obtain ⟨i, hi, rfl⟩ := hx.2 k hne
    rw [hx.1 i hi] at hne
    rw [hy.1 i hi] at hk
    exact hne hk
  have hslots' : ∀ st x y, SlotMap lib s st x → SlotMap lib s st y → x = y := by
    intro st x y hx hy
    funext k
    by_cases hk : y k = none
    · rw [hk, hslots st x y hx hy k hk]
    · obtain ⟨i, hi, rfl⟩ := hy.2 k hk
      rw [hx.1 i hi, hy.1 i hi]
  have key : ∀ a ∈ s.addresses, m (lib.K (addressBytes a)) = m' (lib.K (addressBytes a)) := by
    intro a ha
    obtain ⟨x, hx, e⟩ := h.1 a ha
    obtain ⟨y, hy, e'⟩ := h'.1 a ha
    rw [e, e', hslots' _ x y hx hy]
  funext k
  by_cases hk : m k = none
  · by_cases hk' : m' k = none
    · rw [hk, hk']
    · obtain ⟨a, ha, rfl⟩ := h'.2 k hk'
      exact key a ha
  · obtain ⟨a, ha, rfl⟩ := h.2 k hk
    exact key a ha

theorem blockHash_fold : ∀ (ops : List Op) (w : World) (lib : Lib),
    (ops.foldl (World.step lib) w).blockHash =
      (blocksOf ops).foldl (fun f b n => if b.1 ≥ 256 ∧ n = b.1 - 256 then none else if n = b.1 then some b.2 else f n)
        w.blockHash
  | [], _, _ => rfl
  | op :: ops, w, lib => by
    rw [List.foldl_cons, blockHash_fold ops]
    have hset : ∀ (l : List (Address × Option Info)) (w : World),
        (l.foldl (fun w e => w.setAccount e.1 e.2) w).blockHash = w.blockHash := by
      intro l
      induction l with
      | nil => intro w; rfl
      | cons e l ih => intro w; rw [List.foldl_cons, ih]; rfl
    have hdep : ∀ (l : List (Id × Bytes)) (w : World), (l.foldl World.deploy w).blockHash = w.blockHash := by
      intro l
      induction l with
      | nil => intro w; rfl
      | cons e l ih => intro w; rw [List.foldl_cons, ih]; rfl
    have hchange : ∀ (l : List Changeset) (w : World), (l.foldl (World.change lib) w).blockHash = w.blockHash := by
      intro l
      induction l with
      | nil => intro w; rfl
      | cons e l ih =>
        intro w
        rw [List.foldl_cons, ih]
        simp only [World.change]
        repeat' split
        all_goals first | rfl | (rw [(setSlot_fold _ _ _).2.2.1]; done) | (rw [(setSlot_fold _ _ _).2.2.1]; rfl)
    have hgen : ∀ (l : List (Address × Word)) (w : World), (w.genesis lib l).blockHash = w.blockHash := by
      intro l
      induction l with
      | nil => intro w; rfl
      | cons e l ih => intro w; exact (ih _).trans rfl
    cases op with
    | genesis alloc => simp only [World.step, hgen]; rfl
    | bundle b => simp only [World.step, World.commit, hchange, hdep, hset]; rfl
    | trie nodes => rfl
    | block n h => rfl
    | clearCache => rfl

theorem window_fold : ∀ (blocks : List (UInt64 × Id)) (start : Nat) (f : UInt64 → Option Id),
    start + blocks.length < 2 ^ 64 → (∀ k b, blocks[k]? = some b → b.1.toNat = start + k) →
    ∀ n : UInt64, (blocks.foldl (fun f b n => if b.1 ≥ 256 ∧ n = b.1 - 256 then none else if n = b.1 then some b.2 else f n) f) n =
      if n.toNat + 256 < start + blocks.length ∧ start ≤ n.toNat + 256 then none
      else if start ≤ n.toNat then (match blocks[n.toNat - start]? with
        | some b => some b.2
        | none => f n)
      else f n := by
  intro blocks
  induction blocks with
  | nil =>
    intro start f _ _ n
    have : ¬ (n.toNat + 256 < start + 0 ∧ start ≤ n.toNat + 256) := by omega
    rw [List.length_nil, if_neg this]
    simp
  | cons b rest ih =>
    intro start f hlt hb n
    have hb0 : b.1.toNat = start := by have := hb 0 b rfl; omega
    rw [List.foldl_cons, ih (start + 1) _ (by simp only [List.length_cons] at hlt; omega)
      (fun k c hc => by have := hb (k + 1) c hc; omega) n]
    have hn := n.toNat_lt
    have hge : b.1 ≥ 256 ↔ 256 ≤ start := by
      rw [ge_iff_le, UInt64.le_iff_toNat_le, hb0]; rfl
    have hsub : b.1 ≥ 256 → (n = b.1 - 256 ↔ n.toNat = start - 256) := by
      intro h
      rw [← UInt64.toNat_inj, UInt64.toNat_sub_of_le _ _ h, hb0]; rfl
    have heq : n = b.1 ↔ n.toNat = start := by rw [← UInt64.toNat_inj, hb0]
    simp only [List.length_cons]
    by_cases c1 : n.toNat + 256 < start + (rest.length + 1) ∧ start ≤ n.toNat + 256
    · rw [if_pos c1]
      by_cases c2 : n.toNat + 256 < start + 1 + rest.length ∧ start + 1 ≤ n.toNat + 256
      · rw [if_pos c2]
      · rw [if_neg c2, if_neg (by omega), if_pos]
        have h1 : b.1 ≥ 256 := hge.mpr (by omega)
        exact ⟨h1, (hsub h1).mpr (by omega)⟩
    · rw [if_neg c1, if_neg (by omega)]
      by_cases c3 : start ≤ n.toNat
      · rw [if_pos c3]
        by_cases c4 : n.toNat = start
        · rw [if_neg (by omega), c4, Nat.sub_self, if_neg (by
            intro h; have := (hsub h.1).mp h.2; have := hge.mp h.1; omega), if_pos (heq.mpr c4)]
          rfl
        · rw [if_pos (by omega)]
          have e : n.toNat - start = (n.toNat - (start + 1)) + 1 := by omega
          rw [e, List.getElem?_cons_succ]
          cases hr : rest[n.toNat - (start + 1)]? with
          | some c => rfl
          | none =>
            simp only
            rw [if_neg (by intro h; have := (hsub h.1).mp h.2; have := hge.mp h.1; omega), if_neg (by
              intro h; exact c4 (heq.mp h))]
      · rw [if_neg c3, if_neg (by omega), if_neg (by
          intro h; have := (hsub h.1).mp h.2; have := hge.mp h.1; omega), if_neg (by
          intro h; exact c3 (by have := heq.mp h; omega))]

end Verif.EvmDb
