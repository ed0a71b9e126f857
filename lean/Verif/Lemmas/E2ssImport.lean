import Verif.Lemmas.E2ss

namespace Verif.E2ss
open Verif.E2store hiding Header
open Verif.Archive Verif.EvmDb Verif.Trie Verif.Props.Snapshot

attribute [local irreducible] Id.bytes addressBytes numberBytes

/-! ## Import as a function of the groups -/

def partsLoop (lib : Lib) (ah : Id) : List (List StorageItem) → Kv → Id → Kv × Option Id
  | [], kv, root => (kv, some root)
  | p :: ps, kv, root =>
    match commitItems lib ah kv root p with
    | none => (kv, none)
    | some (kv, root) => partsLoop lib ah ps kv root

def importGroup (lib : Lib) (db : Db) (g : Group) : Db × Bool :=
  match partsLoop lib g.account.addressHash g.parts db.kv lib.emptyRoot with
  | (kv, none) => ({ db with kv }, false)
  | (kv, some root) => finishAccount lib { db with kv } g.account root

/-- The account trie is committed after every 1000 accounts. -/
def afterGroup (lib : Lib) (nodes : Nat → List Bytes) (n : Nat) (db : Db) : Db :=
  if (n + 1) % 1000 = 0 then (commitTrie lib db (nodes (n + 1))).2 else db

def groupsLoop (lib : Lib) (nodes : Nat → List Bytes) : Nat → List Group → Db → Db × Res Nat
  | n, [], db => (db, .ok n)
  | n, g :: gs, db =>
    match importGroup lib db g with
    | (db, false) => (db, .err)
    | (db, true) => groupsLoop lib nodes (n + 1) gs (afterGroup lib nodes n db)

theorem storageLoop_eq (c : Codecs) (lib : Lib) (ah : Id) : ∀ (n : Nat) (b rest : Bytes) (ps : List (List StorageItem)),
    Parts c n b ps rest → ∀ (p : UInt32) (kv : Kv) (root : Id), p.toNat = n →
    storageLoop c lib ah n ⟨b, p⟩ kv root =
      match partsLoop lib ah ps kv root with
      | (kv, none) => (kv, .err)
      | (kv, some root) => (kv, .ok (root, ⟨rest, 0⟩)) := by
  intro n b rest ps h
  induction h with
  | done b =>
    intro p kv root hp
    have : p = 0 := UInt32.toNat_inj.mp hp
    subst this
    rfl
  | @more n raw b rest l ls h1 h2 _ ih =>
    intro p kv root hp
    have hne : p ≠ 0 := by rintro rfl; cases hp
    have hn : Reader.next c ⟨recordBytes (0x0900, raw) ++ b, p⟩ = .ok (some (.storage l), ⟨b, p - 1⟩) :=
      (next_storage_iff c _ hne _).mpr ⟨raw, l, h1, h2, rfl, rfl, rfl⟩
    have hpp := u32_pred hne
    simp only [storageLoop, hn, partsLoop]
    cases commitItems lib ah kv root l with
    | none => rfl
    | some x => exact ih (p - 1) x.1 x.2 (by omega)

theorem storageLoop_sound (c : Codecs) (lib : Lib) (ah : Id) : ∀ (n : Nat) (r : Reader) (kv : Kv) (root : Id) (kv' : Kv)
    (root' : Id) (r' : Reader), r.pending.toNat = n → storageLoop c lib ah n r kv root = (kv', .ok (root', r')) →
    ∃ ps, Parts c n r.rem ps r'.rem ∧ r'.pending = 0
  | 0, r, kv, root, kv', root', r', hp, h => by
    simp only [storageLoop, Prod.mk.injEq, Res.ok.injEq] at h
    obtain ⟨_, _, rfl⟩ := h
    exact ⟨[], .done _, UInt32.toNat_inj.mp hp⟩
  | n + 1, r, kv, root, kv', root', r', hp, h => by
    have hne : r.pending ≠ 0 := by intro e; rw [e] at hp; cases hp
    have hpp := u32_pred hne
    simp only [storageLoop] at h
    cases h1 : r.next c with
    | err => simp [h1] at h
    | panic => simp [h1] at h
    | ok x =>
      obtain ⟨raw, l, g1, g2, g3, g4, g5⟩ := (next_storage_iff c r hne x).mp h1
      obtain ⟨i, r1⟩ := x
      simp only at g3 g4 g5
      subst g4
      simp only [h1] at h
      cases h2 : commitItems lib ah kv root l with
      | none => simp [h2] at h
      | some y =>
        simp only [h2] at h
        obtain ⟨ps, h3, h4⟩ := storageLoop_sound c lib ah n r1 y.1 y.2 kv' root' r' (by rw [g5]; omega) h
        exact ⟨l :: ps, by rw [g3]; exact .more g1 g2 h3, h4⟩

theorem parts_shorter {c : Codecs} {n : Nat} {b rest : Bytes} {ps : List (List StorageItem)} (h : Parts c n b ps rest) :
    rest.length ≤ b.length := by
  induction h with
  | done => exact Nat.le_refl _
  | more _ _ _ ih => rw [List.length_append]; omega

theorem importLoop_eq (c : Codecs) (lib : Lib) (nodes : Nat → List Bytes) : ∀ (b : Bytes) (gs : List Group), Groups c b gs →
    ∀ (fuel n : Nat) (db : Db), b.length < fuel → importLoop c lib nodes fuel n ⟨b, 0⟩ db = groupsLoop lib nodes n gs db := by
  intro b gs h
  induction h with
  | @done b hc =>
    intro fuel n db hf
    obtain ⟨fuel, rfl⟩ : ∃ f, fuel = f + 1 := ⟨fuel - 1, by omega⟩
    have hn : Reader.next c ⟨b, 0⟩ = .ok (none, ⟨b, 0⟩) := (next_end_iff c _ _).mpr ⟨rfl, rfl, hc⟩
    simp only [importLoop, hn, groupsLoop]
  | @more raw b rest a ps gs h1 h2 h3 _ ih =>
    intro fuel n db hf
    obtain ⟨fuel, rfl⟩ : ∃ f, fuel = f + 1 := ⟨fuel - 1, by omega⟩
    have hn : Reader.next c ⟨recordBytes (0x0800, raw) ++ b, 0⟩ = .ok (some (.account a), ⟨b, a.storageCount⟩) :=
      (next_account_iff c _ rfl _ _).mpr ⟨raw, h1, h2, rfl, rfl⟩
    have hlen := parts_shorter h3
    rw [List.length_append, recordBytes_length] at hf
    simp only [importLoop, hn, storageLoop_eq c lib a.addressHash _ _ _ _ h3 a.storageCount db.kv lib.emptyRoot rfl,
      groupsLoop, importGroup]
    rcases hpl : partsLoop lib a.addressHash ps db.kv lib.emptyRoot with ⟨kv, _ | root⟩
    · simp only [hpl]
    · simp only [hpl]
      rcases hfa : finishAccount lib { db with kv } a root with ⟨db', _ | _⟩
      · simp only [hfa]
      · simp only [hfa, afterGroup]
        exact ih fuel (n + 1) _ (by omega)

theorem importLoop_sound (c : Codecs) (lib : Lib) (nodes : Nat → List Bytes) : ∀ (fuel n : Nat) (r : Reader) (db db' : Db)
    (k : Nat), r.pending = 0 → importLoop c lib nodes fuel n r db = (db', .ok k) → ∃ gs, Groups c r.rem gs
  | 0, n, r, db, db', k, _, h => by simp [importLoop] at h
  | fuel + 1, n, r, db, db', k, hp, h => by
    simp only [importLoop] at h
    cases h1 : r.next c with
    | err => simp [h1] at h
    | panic => simp [h1] at h
    | ok x =>
      obtain ⟨i, r1⟩ := x
      cases i with
      | none =>
        obtain ⟨_, rfl, hc⟩ := (next_end_iff c r r1).mp h1
        exact ⟨[], .done hc⟩
      | some i =>
        cases i with
        | storage l => exact absurd h1 (next_zero_storage c r r1 hp l)
        | account a =>
          obtain ⟨raw, g1, g2, g3, g4⟩ := (next_account_iff c r hp a r1).mp h1
          simp only [h1] at h
          rcases hs : storageLoop c lib a.addressHash a.storageCount.toNat r1 db.kv lib.emptyRoot with ⟨kv, res⟩
          cases res with
          | err => simp [hs] at h
          | panic => simp [hs] at h
          | ok y =>
            obtain ⟨root, r2⟩ := y
            simp only [hs] at h
            obtain ⟨ps, h3, h4⟩ := storageLoop_sound c lib _ _ _ _ _ _ _ _ (by rw [g4]) hs
            rcases hfa : finishAccount lib { db with kv } a root with ⟨db1, b⟩
            cases b with
            | false => simp [hfa] at h
            | true =>
              simp only [hfa] at h
              obtain ⟨gs, hg⟩ := importLoop_sound c lib nodes fuel _ r2 _ db' k h4 h
              exact ⟨⟨a, ps⟩ :: gs, by rw [g3]; exact .more g1 g2 h3 hg⟩

/-- The import of a file in terms of what it says. -/
theorem importState_says (c : Codecs) (lib : Lib) (nodes : Nat → List Bytes) (file : Bytes) (h : Header) (gs : List Group)
    (hs : Says c file h gs) (db : Db) : importState c lib nodes file db =
      match groupsLoop lib nodes 0 gs db with
      | (db, .err) => (db, .err)
      | (db, .panic) => (db, .panic)
      | (db, .ok n) =>
        if h.stateRoot ≠ lib.rootOf db.trie then ((commitTrie lib db (nodes n)).2, .err)
        else ((commitTrie lib db (nodes n)).2, .ok h) := by
  obtain ⟨raw, rest, h1, h2, h3, h4⟩ := hs
  have ho := (open_iff c file h ⟨rest, 0⟩).mpr ⟨rfl, raw, h1, h2, h4⟩
  simp only [importState, ho, importLoop_eq c lib nodes rest gs h3 (rest.length + 1) 0 db (Nat.lt_succ_self _)]
  rcases groupsLoop lib nodes 0 gs db with ⟨db', r⟩
  cases r <;> rfl

theorem importState_ok_says (c : Codecs) (lib : Lib) (nodes : Nat → List Bytes) (file : Bytes) (h : Header) (db : Db)
    (hi : (importState c lib nodes file db).2 = .ok h) : ∃ gs, Says c file h gs := by
  simp only [importState] at hi
  cases ho : Reader.open c file with
  | err => simp [ho] at hi
  | panic => simp [ho] at hi
  | ok x =>
    obtain ⟨h', r⟩ := x
    simp only [ho] at hi
    obtain ⟨hp, raw, h1, h2, h3⟩ := (open_iff c file h' r).mp ho
    rcases hl : importLoop c lib nodes (r.rem.length + 1) 0 r db with ⟨db', res⟩
    cases res with
    | err => simp [hl] at hi
    | panic => simp [hl] at hi
    | ok n =>
      simp only [hl] at hi
      obtain ⟨gs, hg⟩ := importLoop_sound c lib nodes _ _ _ _ _ _ hp hl
      have : h' = h := by
        by_cases e : h'.stateRoot ≠ (commitTrie lib db' (nodes n)).1
        · rw [if_pos e] at hi; cases hi
        · rw [if_neg e] at hi; exact Res.ok.inj hi
      subst this
      exact ⟨gs, raw, r.rem, h1, h2, hg, h3⟩

/-! ## Storage -/

variable {lib : Lib} {Holds : Nodes → (Id → Option Bytes) → Prop} {s : Scope}

theorem applyChanges_append (m : Id → Option Bytes) (x y : List (Id × Option Bytes)) :
    applyChanges m (x ++ y) = applyChanges (applyChanges m x) y := by
  simp [applyChanges, List.foldl_append]

theorem slotContent_snoc (lib : Lib) (l : List StorageItem) (i : StorageItem) :
    slotContent lib (l ++ [i]) = fun k => if k = i.index then some (lib.encodeWord i.value) else slotContent lib l k := by
  funext k
  simp only [slotContent, List.reverse_append, List.reverse_cons, List.reverse_nil, List.nil_append, List.singleton_append,
    List.find?_cons]
  by_cases h : k = i.index
  · subst h; simp
  · have : decide (i.index = k) = false := by simpa using fun e => h e.symm
    simp [h, this]

theorem slotContent_eq (lib : Lib) (l : List StorageItem) :
    slotContent lib l = applyChanges (fun _ => none) (l.map (itemEntry lib)) := by
  have : ∀ r : List StorageItem, slotContent lib r.reverse =
      applyChanges (fun _ => none) (r.reverse.map (itemEntry lib)) := by
    intro r
    induction r with
    | nil => rfl
    | cons i r ih =>
      rw [List.reverse_cons, slotContent_snoc, List.map_append, applyChanges_append, ← ih]
      rfl
  have := this l.reverse
  rwa [List.reverse_reverse] at this

theorem commitItems_ok (hl : lib.Sound Holds) {kv : Kv} {ah : Id} {m : Id → Option Bytes}
    (hm : Holds (nodesOf lib kv ah) m) (l : List StorageItem) :
    ∃ kv', commitItems lib ah kv (lib.rootOf m) l = some (kv', lib.rootOf (applyChanges m (l.map (itemEntry lib)))) ∧
      Holds (nodesOf lib kv' ah) (applyChanges m (l.map (itemEntry lib))) ∧ (∀ k : Id, kv' k.bytes = kv k.bytes) ∧
      ∀ b, b ≠ ah → nodesOf lib kv' b = nodesOf lib kv b := by
  obtain ⟨d, hd, hroot, hholds, hins, hrem⟩ := hl.update (nodesOf lib kv ah) m (l.map (itemEntry lib)) hm
  refine ⟨d.removed.foldl (removeNode lib ah) (d.inserted.foldl (insertNode lib ah) kv), ?_, ?_, ?_, ?_⟩
  · simp only [commitItems, hd, Option.map_some, hroot]
  · rw [remove_fold_same _ _ hrem, insert_fold_same _ _ hins]; exact hholds
  · intro k; rw [remove_fold_short (Id.bytes_length k), insert_fold_short (Id.bytes_length k)]
  · intro b hb; rw [remove_fold_other (Ne.symm hb), insert_fold_other (Ne.symm hb)]

theorem partsLoop_ok (hl : lib.Sound Holds) {ah : Id} : ∀ (ps : List (List StorageItem)) {kv : Kv} {m : Id → Option Bytes},
    Holds (nodesOf lib kv ah) m →
    ∃ kv', partsLoop lib ah ps kv (lib.rootOf m) =
        (kv', some (lib.rootOf (applyChanges m (ps.flatten.map (itemEntry lib))))) ∧
      Holds (nodesOf lib kv' ah) (applyChanges m (ps.flatten.map (itemEntry lib))) ∧ (∀ k : Id, kv' k.bytes = kv k.bytes) ∧
      ∀ b, b ≠ ah → nodesOf lib kv' b = nodesOf lib kv b
  | [], kv, m, hm => ⟨kv, rfl, hm, fun _ => rfl, fun _ _ => rfl⟩
  | p :: ps, kv, m, hm => by
    obtain ⟨kv1, h1, h2, h3, h4⟩ := commitItems_ok hl hm p
    obtain ⟨kv2, g1, g2, g3, g4⟩ := partsLoop_ok hl ps h2
    refine ⟨kv2, ?_, ?_, fun k => (g3 k).trans (h3 k), fun b hb => (g4 b hb).trans (h4 b hb)⟩
    · simp only [partsLoop, h1, g1, List.flatten_cons, List.map_append, applyChanges_append]
    · rw [List.flatten_cons, List.map_append, applyChanges_append]; exact g2

/-- The data of one account hashes to what it should. -/
def GroupOk (lib : Lib) (g : Group) : Prop :=
  lib.rootOf (slotContent lib g.slots) = g.account.state.storageRoot ∧ lib.K g.account.bytecode = g.account.state.codeHash

/-- What the import of an account does to the database. -/
structure Loaded (lib : Lib) (Holds : Nodes → (Id → Option Bytes) → Prop) (db db' : Db) (g : Group) : Prop where
  trie : db'.trie = fun h => if h = g.account.addressHash then some (lib.encodeAccount g.account.state) else db.trie h
  record : db'.kv g.account.addressHash.bytes = some (lib.encodeAccount g.account.state)
  code : g.account.bytecode ≠ [] → lib.K g.account.bytecode ≠ g.account.addressHash →
    db'.kv (lib.K g.account.bytecode).bytes = some g.account.bytecode
  other : ∀ k : Id, k ≠ g.account.addressHash → g.account.bytecode = [] ∨ k ≠ lib.K g.account.bytecode →
    db'.kv k.bytes = db.kv k.bytes
  slots : Holds (nodesOf lib db'.kv g.account.addressHash) (slotContent lib g.slots)
  nodes : ∀ b, b ≠ g.account.addressHash → nodesOf lib db'.kv b = nodesOf lib db.kv b

theorem importGroup_cases (hl : lib.Sound Holds) (db : Db) (g : Group) :
    (GroupOk lib g ∧ ∃ db', importGroup lib db g = (db', true) ∧ Loaded lib Holds db db' g) ∨
    (¬ GroupOk lib g ∧ ∃ db', importGroup lib db g = (db', false)) := by
  obtain ⟨kv1, h1, h2, h3, h4⟩ := partsLoop_ok hl g.parts (hl.empty (nodesOf lib db.kv g.account.addressHash))
  rw [hl.emptyRoot] at h1
  have hsc : slotContent lib g.slots = applyChanges (fun _ => none) (g.parts.flatten.map (itemEntry lib)) :=
    slotContent_eq lib g.slots
  rw [← hsc] at h1 h2
  obtain ⟨kv2, g1, g2, g3, g4⟩ := commitItems_ok hl h2 []
  simp only [List.map_nil, applyChanges, List.foldl_nil] at g1 g2
  have key : importGroup lib db g = (if lib.rootOf (slotContent lib g.slots) ≠ g.account.state.storageRoot then
        ({ db with kv := kv2 }, false)
      else if g.account.state.codeHash ≠ lib.K g.account.bytecode then ({ db with kv := kv2 }, false)
      else ((if g.account.bytecode.isEmpty then { db with kv := kv2 }
        else { db with kv := kv2.put (lib.K g.account.bytecode).bytes g.account.bytecode } : Db).putAccount lib
          g.account.addressHash g.account.state, true)) := by
    simp only [importGroup, h1, finishAccount, g1]
  rw [key]
  by_cases e1 : lib.rootOf (slotContent lib g.slots) = g.account.state.storageRoot
  · by_cases e2 : lib.K g.account.bytecode = g.account.state.codeHash
    · left
      refine ⟨⟨e1, e2⟩, _, by rw [if_neg (by simpa using e1), if_neg (by simpa using e2.symm)], ?_⟩
      generalize hdb1 : (if g.account.bytecode.isEmpty then { db with kv := kv2 }
        else { db with kv := kv2.put (lib.K g.account.bytecode).bytes g.account.bytecode } : Db) = db1
      obtain ⟨p1, p2, p3, p4, p5⟩ := putAccount_good (lib := lib) db1 g.account.addressHash g.account.state
      have ht : db1.trie = db.trie := by rw [← hdb1]; split <;> rfl
      have hn : ∀ b, nodesOf lib db1.kv b = nodesOf lib kv2 b := by
        intro b
        rw [← hdb1]
        split
        · rfl
        · exact nodesOf_congr (put_long _ _ _) b
      have hk : ∀ k : Id, g.account.bytecode = [] ∨ k ≠ lib.K g.account.bytecode → db1.kv k.bytes = kv2 k.bytes := by
        intro k hk
        rw [← hdb1]
        split
        · rfl
        · next hne =>
          rcases hk with hk | hk
          · rw [hk] at hne; simp at hne
          · exact put_other _ _ (bytes_ne hk)
      refine ⟨?_, p1, ?_, ?_, ?_, ?_⟩
      · funext x
        by_cases hx : x = g.account.addressHash
        · rw [if_pos hx, hx]; exact p2
        · rw [if_neg hx, p5 x hx, ht]
      · intro hne hah
        rw [p3 _ hah, ← hdb1, if_neg (by simpa using hne)]
        exact put_same _ _ _
      · intro k hka hkc
        rw [p3 k hka, hk k hkc, g3, h3]
      · rw [p4, hn]; exact g2
      · intro b hb
        rw [p4, hn, g4 b hb, h4 b hb]
    · right
      exact ⟨fun h => e2 h.2, _, by rw [if_neg (by simpa using e1), if_pos (fun h => e2 h.symm)]⟩
  · right
    exact ⟨fun h => e1 h.1, _, by rw [if_pos e1]⟩

theorem afterGroup_trie (lib : Lib) (nodes : Nat → List Bytes) (n : Nat) (db : Db) :
    (afterGroup lib nodes n db).trie = db.trie := by
  simp only [afterGroup]; split <;> rfl

/-- The account trie after the groups. -/
def withAccounts (lib : Lib) (t : Id → Option Bytes) (gs : List Group) : Id → Option Bytes :=
  gs.foldl (fun t g h => if h = g.account.addressHash then some (lib.encodeAccount g.account.state) else t h) t

theorem accountContent_snoc (lib : Lib) (l : List Group) (g : Group) :
    accountContent lib (l ++ [g]) = fun k => if k = g.account.addressHash then some (lib.encodeAccount g.account.state)
      else accountContent lib l k := by
  funext k
  simp only [accountContent, List.reverse_append, List.reverse_cons, List.reverse_nil, List.nil_append, List.singleton_append,
    List.find?_cons]
  by_cases h : k = g.account.addressHash
  · subst h; simp
  · have : decide (g.account.addressHash = k) = false := by simpa using fun e => h e.symm
    simp [h, this]

theorem accountContent_eq (lib : Lib) (l : List Group) : accountContent lib l = withAccounts lib (fun _ => none) l := by
  have : ∀ r : List Group, accountContent lib r.reverse = withAccounts lib (fun _ => none) r.reverse := by
    intro r
    induction r with
    | nil => rfl
    | cons i r ih =>
      rw [List.reverse_cons, accountContent_snoc, withAccounts, List.foldl_append, ih]
      rfl
  have := this l.reverse
  rwa [List.reverse_reverse] at this

theorem groupsLoop_cases (hl : lib.Sound Holds) (nodes : Nat → List Bytes) : ∀ (gs : List Group) (n : Nat) (db : Db),
    ((∀ g ∈ gs, GroupOk lib g) ∧ ∃ db', groupsLoop lib nodes n gs db = (db', .ok (n + gs.length)) ∧
      db'.trie = withAccounts lib db.trie gs) ∨
    ((∃ g ∈ gs, ¬ GroupOk lib g) ∧ ∃ db', groupsLoop lib nodes n gs db = (db', .err))
  | [], n, db => Or.inl ⟨by simp, db, rfl, rfl⟩
  | g :: gs, n, db => by
    rcases importGroup_cases hl db g with ⟨hg, db1, h1, h2⟩ | ⟨hg, db1, h1⟩
    · rcases groupsLoop_cases hl nodes gs (n + 1) (afterGroup lib nodes n db1) with ⟨h3, db2, h4, h5⟩ | ⟨⟨g', h3, h3'⟩, db2, h4⟩
      · left
        refine ⟨?_, db2, ?_, ?_⟩
        · intro x hx
          rcases List.mem_cons.mp hx with rfl | hx
          · exact hg
          · exact h3 x hx
        · simp only [groupsLoop, h1, h4, List.length_cons]
          rw [Nat.add_assoc, Nat.add_comm 1]
        · rw [h5, afterGroup_trie, h2.trie]; rfl
      · right
        exact ⟨⟨g', List.mem_cons_of_mem _ h3, h3'⟩, db2, by simp only [groupsLoop, h1, h4]⟩
    · right
      exact ⟨⟨g, List.mem_cons_self, hg⟩, db1, by simp only [groupsLoop, h1]⟩

/-- A file is accepted exactly if what it says is consistent; then the account trie is what it says. -/
theorem importState_iff (hl : lib.Sound Holds) (c : Codecs) (nodes : Nat → List Bytes) (file : Bytes) (db : Db)
    (ht : db.trie = fun _ => none) (h : Header) :
    (importState c lib nodes file db).2 = .ok h ↔ ∃ gs, Says c file h gs ∧ Consistent lib h gs := by
  have main : ∀ gs, Says c file h gs → ((importState c lib nodes file db).2 = .ok h ↔ Consistent lib h gs) := by
    intro gs hs
    rw [importState_says c lib nodes file h gs hs db]
    rcases groupsLoop_cases hl nodes gs 0 db with ⟨h1, db', h2, h3⟩ | ⟨⟨g, h1, h1'⟩, db', h2⟩
    · rw [h2]
      simp only
      rw [h3, ht, ← accountContent_eq]
      by_cases e : h.stateRoot = lib.rootOf (accountContent lib gs)
      · rw [if_neg (by simpa using e)]
        simp only [true_iff]
        exact ⟨h1, e.symm⟩
      · rw [if_pos e]
        constructor
        · intro hh; cases hh
        · intro hc; exact absurd hc.2.symm e
    · rw [h2]
      simp only [reduceCtorEq, false_iff]
      intro hc
      exact h1' (hc.1 g h1)
  constructor
  · intro hi
    obtain ⟨gs, hs⟩ := importState_ok_says c lib nodes file h db hi
    exact ⟨gs, hs, (main gs hs).mp hi⟩
  · rintro ⟨gs, hs, hc⟩
    exact (main gs hs).mpr hc

theorem commitTrie_trie (lib : Lib) (db : Db) (nodes : List Bytes) : (commitTrie lib db nodes).2.trie = db.trie := rfl

theorem importState_trie (hl : lib.Sound Holds) (c : Codecs) (nodes : Nat → List Bytes) (file : Bytes) (db : Db)
    (ht : db.trie = fun _ => none) (h : Header) (gs : List Group) (hs : Says c file h gs)
    (hi : (importState c lib nodes file db).2 = .ok h) : (importState c lib nodes file db).1.trie = accountContent lib gs := by
  rw [importState_says c lib nodes file h gs hs db] at hi ⊢
  rcases groupsLoop_cases hl nodes gs 0 db with ⟨h1, db', h2, h3⟩ | ⟨⟨g, h1, h1'⟩, db', h2⟩
  · rw [h2]
    simp only
    rw [ht, ← accountContent_eq] at h3
    split
    · exact (commitTrie_trie lib db' _).trans h3
    · exact (commitTrie_trie lib db' _).trans h3
  · rw [h2] at hi; cases hi

end Verif.E2ss
