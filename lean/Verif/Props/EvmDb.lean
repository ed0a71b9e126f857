import Verif.Lemmas.EvmDb

/-! # C65: the execution database is the state -/

namespace Verif.Props
open Verif.Trie Verif.EvmDb

attribute [local irreducible] Id.bytes addressBytes numberBytes

/-- After any history of genesis, bundles, trie commits and blocks, every read gives what plain maps hold: accounts,
storage of existing accounts, deployed code, block hashes. No commit fails. Partial: only if no code in play is, byte
for byte, an address in play or a block number in 32 bytes (see `C65_code_as_address_violated`). -/
theorem C65_reads_partial (lib : Lib) (Holds : Nodes → (Id → Option Bytes) → Prop) (hl : lib.Sound Holds) (s : Scope)
    (hcol : s.NoCollision lib) (hnodes : s.LargeNodes) (hcodes : s.CodesApart) (cache : Bool) (ops : List Op)
    (hops : ∀ op ∈ ops, s.Covers lib op) :
    ∃ db, run lib cache ops = some db ∧
      (∀ a ∈ s.addresses, basic lib db a = some ((world lib ops).account a)) ∧
      (∀ a ∈ s.addresses, (world lib ops).account a ≠ none → ∀ i ∈ s.slots,
        storage lib db a i = some ((world lib ops).storage a i)) ∧
      (∀ h c, (world lib ops).code h = some c → codeByHash db h = some c) ∧
      ∀ n ∈ s.numbers, blockHash lib db n = (world lib ops).blockHash n := by
  obtain ⟨db, h1, h2⟩ := run_inv hl ⟨hcol, hnodes, hcodes⟩ cache hops
  refine ⟨db, h1, fun a ha => h2.basic hl ha, fun a ha hne i hi => ?_, fun h c hc => (h2.code h c hc).1,
    fun n hn => h2.blockHash hn⟩
  rw [h2.storage hl ha hi, if_neg hne]

/-- Storage of an account that does not exist is an error, and its record has no slots in the plain maps. -/
theorem C65_no_account_partial (lib : Lib) (Holds : Nodes → (Id → Option Bytes) → Prop) (hl : lib.Sound Holds) (s : Scope)
    (hcol : s.NoCollision lib) (hnodes : s.LargeNodes) (hcodes : s.CodesApart) (cache : Bool) (ops : List Op)
    (hops : ∀ op ∈ ops, s.Covers lib op) (a : Address) (ha : a ∈ s.addresses) (hn : (world lib ops).account a = none) :
    ∃ db, run lib cache ops = some db ∧ (∀ i ∈ s.slots, storage lib db a i = none) ∧
      ∀ i, (world lib ops).storage a i = 0 := by
  obtain ⟨db, h1, h2⟩ := run_inv hl ⟨hcol, hnodes, hcodes⟩ cache hops
  refine ⟨db, h1, fun i hi => ?_, h2.gone a hn⟩
  rw [h2.storage hl ha hi, if_pos hn]

/-- The root that a commit of the account trie returns is the root of the one trie that belongs to the state: hashed
addresses to accounts, each with the root of the trie of its hashed slots that are not zero. -/
theorem C65_state_root_partial (lib : Lib) (Holds : Nodes → (Id → Option Bytes) → Prop) (hl : lib.Sound Holds) (s : Scope)
    (hcol : s.NoCollision lib) (hnodes : s.LargeNodes) (hcodes : s.CodesApart) (cache : Bool) (ops : List Op)
    (hops : ∀ op ∈ ops, s.Covers lib op) (nodes : List Bytes) :
    ∃ db m, run lib cache ops = some db ∧ StateMap lib s (world lib ops) m ∧ (commitTrie lib db nodes).1 = lib.rootOf m ∧
      ∀ m', StateMap lib s (world lib ops) m' → m' = m := by
  obtain ⟨db, h1, h2⟩ := run_inv hl ⟨hcol, hnodes, hcodes⟩ cache hops
  exact ⟨db, db.trie, h1, h2.stateMap, rfl, fun m' h' => stateMap_unique lib s _ _ _ h' h2.stateMap⟩

/-- The hashes of the last 256 executed blocks are served, older ones are gone. -/
theorem C65_window_partial (lib : Lib) (Holds : Nodes → (Id → Option Bytes) → Prop) (hl : lib.Sound Holds) (s : Scope)
    (hcol : s.NoCollision lib) (hnodes : s.LargeNodes) (hcodes : s.CodesApart) (cache : Bool) (ops : List Op)
    (hops : ∀ op ∈ ops, s.Covers lib op) (hcons : Consecutive (blocksOf ops)) :
    ∃ db, run lib cache ops = some db ∧
      (∀ k b, (blocksOf ops)[k]? = some b → (blocksOf ops).length ≤ k + 256 → blockHash lib db b.1 = some b.2) ∧
      ∀ k b, (blocksOf ops)[k]? = some b → k + 256 < (blocksOf ops).length → blockHash lib db b.1 = none := by
  obtain ⟨db, h1, h2⟩ := run_inv hl ⟨hcol, hnodes, hcodes⟩ cache hops
  have hw := window_fold (blocksOf ops) 1 (fun _ => none) (by have := hcons.1; omega)
    (fun k b hb => by have := hcons.2 k b hb; omega)
  have hmem : ∀ (k : Nat) (b : UInt64 × Id), (blocksOf ops)[k]? = some b → b.1 ∈ s.numbers := by
    intro k b hb
    have := List.mem_of_getElem? hb
    simp only [blocksOf, List.mem_filterMap] at this
    obtain ⟨op, hop, e⟩ := this
    cases op with
    | block n h => cases e; exact (hops _ hop).1
    | _ => cases e
  have hval : ∀ n, (world lib ops).blockHash n = _ := fun n =>
    (congrFun (blockHash_fold ops (World.initial lib) lib) n).trans (hw n)
  refine ⟨db, h1, fun k b hb hk => ?_, fun k b hb hk => ?_⟩
  · have hn := hcons.2 k b hb
    rw [h2.blockHash (hmem k b hb), hval b.1, if_neg (by omega), if_pos (by omega)]
    have : b.1.toNat - 1 = k := by omega
    rw [this, hb]
  · have hn := hcons.2 k b hb
    rw [h2.blockHash (hmem k b hb), hval b.1, if_pos (by omega)]

/-- The hash of the genesis block is never stored (execution of block 0 returns early), so it cannot be read in the
256 blocks after it. -/
theorem C65_genesis_hash_violated (lib : Lib) (Holds : Nodes → (Id → Option Bytes) → Prop) (hl : lib.Sound Holds) (s : Scope)
    (hcol : s.NoCollision lib) (hnodes : s.LargeNodes) (hcodes : s.CodesApart) (cache : Bool) (ops : List Op)
    (hops : ∀ op ∈ ops, s.Covers lib op) (hcons : Consecutive (blocksOf ops)) (h0 : 0 ∈ s.numbers) :
    ∃ db, run lib cache ops = some db ∧ blockHash lib db 0 = none := by
  obtain ⟨db, h1, h2⟩ := run_inv hl ⟨hcol, hnodes, hcodes⟩ cache hops
  have hw := window_fold (blocksOf ops) 1 (fun _ => none) (by have := hcons.1; omega)
    (fun k b hb => by have := hcons.2 k b hb; omega)
  refine ⟨db, h1, ?_⟩
  rw [h2.blockHash h0]
  refine (congrFun (blockHash_fold ops (World.initial lib) lib) 0).trans ((hw 0).trans ?_)
  split
  · rfl
  · rfl

/-- Accounts, codes and block hashes share one key space, where the key is a hash. Whoever deploys a contract whose
code is the 20 bytes of an address overwrites the record of that account: it cannot be read any more, and the next
bundle that writes the account fails. -/
theorem C65_code_as_address_violated (lib : Lib) (a : Address) (hk : lib.K (addressBytes a) ≠ lib.K [] ∧ lib.K (addressBytes a) ≠ 0)
    (hd : lib.decodeAccount (addressBytes a) = none) (i : Info) (cache : Bool) :
    let ops := [Op.bundle ⟨[(a, some i)], [], []⟩, Op.bundle ⟨[], [(lib.K (addressBytes a), addressBytes a)], []⟩]
    (world lib ops).account a = some i ∧
    ∃ db, run lib cache ops = some db ∧ basic lib db a = none ∧
      ∀ j, commitBundle lib db ⟨[(a, some j)], [], []⟩ = none := by
  intro ops
  have hkv : (initial lib cache).kv (lib.K (addressBytes a)).bytes = none := by
    show Kv.put (Kv.put _ _ _) _ _ _ = _
    rw [put_other _ _ (bytes_ne hk.2), put_other _ _ (bytes_ne hk.1)]
  have hfetch : fetchAccount lib (initial lib cache) (lib.K (addressBytes a)) = some none := by
    simp only [fetchAccount, hkv]
  obtain ⟨db1, hdb1⟩ : ∃ db1, db1 = Db.putAccount lib (initial lib cache) (lib.K (addressBytes a))
      ⟨i.nonce, i.balance, lib.emptyRoot, i.codeHash⟩ := ⟨_, rfl⟩
  obtain ⟨db2, hdb2⟩ : ∃ db2, db2 = commitContract db1 (lib.K (addressBytes a), addressBytes a) := ⟨_, rfl⟩
  have e1 : commitBundle lib (initial lib cache) ⟨[(a, some i)], [], []⟩ = some db1 := by
    subst hdb1
    simp only [commitBundle, List.foldlM_cons, List.foldlM_nil, commitAccountEntry, commitAccount, hfetch, List.foldl_nil]
    rfl
  have e2 : commitBundle lib db1 ⟨[], [(lib.K (addressBytes a), addressBytes a)], []⟩ = some db2 := by
    subst hdb2; rfl
  have e3 : fetchAccount lib db2 (lib.K (addressBytes a)) = none := by
    have : db2.kv (lib.K (addressBytes a)).bytes = some (addressBytes a) := by
      subst hdb2
      show Kv.put _ _ _ _ = _
      exact put_same _ _ _
    simp only [fetchAccount, this, hd]
    rfl
  refine ⟨by simp [ops, world, World.step, World.commit, World.setAccount, World.deploy], db2, ?_, ?_, fun j => ?_⟩
  · show List.foldlM (step lib) (initial lib cache) ops = _
    simp only [ops, List.foldlM_cons, List.foldlM_nil, step, e1, Option.bind_eq_bind, Option.bind_some, e2]
    rfl
  · simp only [basic, e3]; rfl
  · simp only [commitBundle, List.foldlM_cons, commitAccountEntry, commitAccount, e3]
    rfl

/-- A contract whose code is a block number in 32 bytes overwrites the hash of that block: reads give the number. -/
theorem C65_code_as_number_violated (lib : Lib) (n : UInt64) (h : Id) (hne : h.toNat ≠ n.toNat) (hn : n < 256) (cache : Bool) :
    let ops := [Op.block n h, Op.bundle ⟨[], [(lib.K (numberBytes n), numberBytes n)], []⟩]
    (world lib ops).blockHash n = some h ∧
    ∃ db, run lib cache ops = some db ∧ blockHash lib db n = some (BitVec.ofNat 256 n.toNat) ∧
      blockHash lib db n ≠ some h := by
  intro ops
  have hlt : n.toNat < 2 ^ 64 := n.toNat_lt
  obtain ⟨db, hdb⟩ : ∃ db, db = commitContract (manageBlockHash lib (initial lib cache) n h)
      (lib.K (numberBytes n), numberBytes n) := ⟨_, rfl⟩
  have e : blockHash lib db n = some (BitVec.ofNat 256 n.toNat) := by
    have : db.kv (lib.K (numberBytes n)).bytes = some (numberBytes n) := by
      subst hdb
      show Kv.put _ _ _ _ = _
      exact put_same _ _ _
    simp only [blockHash, this, numberBytes_length, if_true]
    rw [fromBe_numberBytes]
  refine ⟨?_, db, ?_, e, ?_⟩
  · have : ¬ (n ≥ 256 ∧ n = n - 256) := fun g => by
      have h1 := UInt64.le_iff_toNat_le.mp g.1
      have h2 := UInt64.lt_iff_toNat_lt.mp hn
      omega
    simp only [ops, world, List.foldl_cons, List.foldl_nil, World.step, World.commit, World.deploy, World.block]
    simp [this]
  · subst hdb; rfl
  · rw [e]
    intro g
    have := congrArg BitVec.toNat (Option.some.inj g)
    rw [BitVec.toNat_ofNat, Nat.mod_eq_of_lt (by omega)] at this
    exact hne this.symm

/-! ## A library that meets the expectations

All slots of an account are in one node. -/

namespace EvmDbExample

/-- Bytes with an end mark. -/
def esc : Bytes → Bytes
  | [] => [0]
  | b :: r => 1 :: b :: esc r

def unesc : Bytes → Option (Bytes × Bytes)
  | 0 :: r => some ([], r)
  | 1 :: b :: r => (unesc r).map fun x => (b :: x.1, x.2)
  | _ => none

theorem unesc_esc : ∀ (x r : Bytes), unesc (esc x ++ r) = some (x, r)
  | [], r => by rw [esc]; rfl
  | b :: x, r => by
    rw [esc, List.cons_append, List.cons_append, unesc, unesc_esc x r]
    rfl

def ser : List (Id × Bytes) → Bytes
  | [] => []
  | e :: r => e.1.bytes ++ (esc e.2 ++ ser r)

def deser : Nat → Bytes → List (Id × Bytes)
  | 0, _ => []
  | n + 1, b =>
    if b.length < 32 then []
    else match unesc (b.drop 32) with
      | none => []
      | some (v, r) => (BitVec.ofNat 256 (fromBe (b.take 32)), v) :: deser n r

theorem ser_length : ∀ l : List (Id × Bytes), l.length ≤ (ser l).length
  | [] => Nat.le_refl _
  | e :: r => by
    have := ser_length r
    simp only [ser, List.length_cons, List.length_append, Id.bytes_length]
    omega

theorem deser_ser : ∀ (l : List (Id × Bytes)) (n : Nat), l.length ≤ n → deser n (ser l) = l
  | [], n, _ => by cases n <;> simp [ser, deser]
  | e :: r, 0, h => by simp at h
  | e :: r, n + 1, h => by
    have h1 : (e.1.bytes ++ (esc e.2 ++ ser r)).take 32 = e.1.bytes := by
      rw [List.take_append_of_le_length (by simp [Id.bytes_length]), List.take_of_length_le (by simp [Id.bytes_length])]
    have h2 : (e.1.bytes ++ (esc e.2 ++ ser r)).drop 32 = esc e.2 ++ ser r := by
      rw [List.drop_append_of_le_length (by simp [Id.bytes_length]), List.drop_of_length_le (by simp [Id.bytes_length])]
      rfl
    have h3 : ¬ (e.1.bytes ++ (esc e.2 ++ ser r)).length < 32 := by simp [Id.bytes_length]
    simp only [ser, deser, if_neg h3, h1, h2, unesc_esc, Id.fromBe_bytes]
    rw [deser_ser r n (by simp at h; omega)]
    simp

def look (l : List (Id × Bytes)) (k : Id) : Option Bytes := (l.find? fun e => e.1 == k).map (·.2)

def change (l : List (Id × Bytes)) (c : Id × Option Bytes) : List (Id × Bytes) :=
  match c.2 with
  | some v => (c.1, v) :: l
  | none => l.filter fun e => e.1 != c.1

theorem look_change (l : List (Id × Bytes)) (c : Id × Option Bytes) (k : Id) :
    look (change l c) k = if k = c.1 then c.2 else look l k := by
  obtain ⟨a, v⟩ := c
  cases v with
  | some v =>
    simp only [change, look, List.find?_cons]
    by_cases h : k = a
    · subst h; simp
    · have : (a == k) = false := by simpa using fun e => h e.symm
      simp [this, h]
  | none =>
    simp only [change, look]
    induction l with
    | nil => by_cases h : k = a <;> simp [h]
    | cons e l ih =>
      by_cases he : e.1 = a
      · have : (e.1 != a) = false := by simp [he]
        rw [List.filter_cons_of_neg (by simp [this]), ih]
        by_cases h : k = a
        · rw [if_pos h, if_pos h]
        · rw [if_neg h, if_neg h, List.find?_cons_of_neg (by simp; intro e'; exact h (e'.symm.trans he))]
      · rw [List.filter_cons_of_pos (by simpa using he)]
        by_cases h : e.1 = k
        · have hk : k ≠ a := fun e' => he (h.trans e')
          rw [if_neg hk, List.find?_cons_of_pos (by simpa using h), List.find?_cons_of_pos (by simpa using h)]
        · rw [List.find?_cons_of_neg (by simpa using h), List.find?_cons_of_neg (by simpa using h), ih]

theorem look_changes : ∀ (cs : List (Id × Option Bytes)) (l : List (Id × Bytes)),
    look (cs.foldl change l) = applyChanges (look l) cs
  | [], _ => rfl
  | c :: cs, l => by
    rw [List.foldl_cons, look_changes cs, applyChanges, applyChanges, List.foldl_cons]
    congr 1
    funext k
    exact look_change l c k

/-- The one node. -/
def top : Id := 77

def content (nodes : Nodes) : List (Id × Bytes) :=
  match nodes top with
  | some b => deser b.length b
  | none => []

def K (b : Bytes) : Id := BitVec.ofNat 256 (fromBe (1 :: b) + 1000 * b.length)

open Classical in
noncomputable def lib : Lib where
  K := K
  encodeAccount a := 9 :: (toBe 8 a.nonce.toNat ++ (Id.bytes a.balance ++ (a.storageRoot.bytes ++ a.codeHash.bytes)))
  decodeAccount b := if b.head? = some 9 then some ⟨UInt64.ofNat (fromBe ((b.drop 1).take 8)),
    BitVec.ofNat 256 (fromBe ((b.drop 9).take 32)), BitVec.ofNat 256 (fromBe ((b.drop 41).take 32)),
    BitVec.ofNat 256 (fromBe ((b.drop 73).take 32))⟩ else none
  encodeWord w := Id.bytes w
  decodeWord b := some (BitVec.ofNat 256 (fromBe b))
  emptyRoot := 55
  get nodes _ k := some (look (content nodes) k)
  update nodes root cs :=
    match cs.foldl change (if root = none then [] else content nodes) with
    | [] => some ⟨55, [], [top]⟩
    | e :: l => some ⟨top, [(top, ser (e :: l))], []⟩
  clear _ _ := some [top]
  rootOf m := if m = fun _ => none then 55 else top

def Holds (nodes : Nodes) (m : Id → Option Bytes) : Prop :=
  (m = fun _ => none) ∨ ∃ l, l ≠ [] ∧ nodes top = some (ser l) ∧ m = look l

theorem look_some {l : List (Id × Bytes)} (h : l ≠ []) : look l ≠ fun _ => none := by
  cases l with
  | nil => exact absurd rfl h
  | cons e l =>
    intro hn
    have := congrFun hn e.1
    simp [look] at this

theorem content_ser {nodes : Nodes} {l : List (Id × Bytes)} (h : nodes top = some (ser l)) : content nodes = l := by
  simp only [content, h]
  exact deser_ser l _ (ser_length l)

theorem sound : lib.Sound Holds where
  account := by
    intro a
    have h1 := Id.bytes_length a.storageRoot
    have h2 := Id.bytes_length a.codeHash
    have h3 := Id.bytes_length a.balance
    have h4 : (toBe 8 a.nonce.toNat).length = 8 := by simp
    have hn : a.nonce.toNat < 256 ^ 8 := by have := a.nonce.toNat_lt; omega
    simp only [lib, List.head?_cons, if_true, List.drop_succ_cons, List.drop_zero]
    have take : ∀ (x y : Bytes) (n : Nat), x.length = n → (x ++ y).take n = x := by
      rintro x y n rfl; simp
    have drop : ∀ (x y : Bytes) (n k : Nat), x.length = n → (x ++ y).drop (n + k) = y.drop k := by
      rintro x y n k rfl; simp
    have e1 : (toBe 8 a.nonce.toNat ++ (Id.bytes a.balance ++ (a.storageRoot.bytes ++ a.codeHash.bytes))).take 8 =
        toBe 8 a.nonce.toNat := take _ _ _ h4
    have e2 : ((toBe 8 a.nonce.toNat ++ (Id.bytes a.balance ++ (a.storageRoot.bytes ++ a.codeHash.bytes))).drop 8).take 32 =
        Id.bytes a.balance := by
      rw [show (8 : Nat) = 8 + 0 from rfl, drop _ _ _ _ h4]
      exact take _ _ _ h3
    have e3 : ((toBe 8 a.nonce.toNat ++ (Id.bytes a.balance ++ (a.storageRoot.bytes ++ a.codeHash.bytes))).drop 40).take 32 =
        a.storageRoot.bytes := by
      rw [show (40 : Nat) = 8 + (32 + 0) from rfl, drop _ _ _ _ h4, drop _ _ _ _ h3]
      exact take _ _ _ h1
    have e4 : ((toBe 8 a.nonce.toNat ++ (Id.bytes a.balance ++ (a.storageRoot.bytes ++ a.codeHash.bytes))).drop 72).take 32 =
        a.codeHash.bytes := by
      rw [show (72 : Nat) = 8 + (32 + (32 + 0)) from rfl, drop _ _ _ _ h4, drop _ _ _ _ h3, drop _ _ _ _ h1]
      exact List.take_of_length_le (by simp [h2])
    rw [e1, e2, e3, e4, fromBe_toBe_of_lt hn, Id.fromBe_bytes, Id.fromBe_bytes, Id.fromBe_bytes]
    cases a
    simp
  word := by intro w; simp [lib, Id.fromBe_bytes]
  empty := fun _ => Or.inl rfl
  emptyRoot := by simp [lib]
  otherRoot := by
    intro nodes m _ hk
    have : ¬ m = fun _ => none := by rintro rfl; obtain ⟨k, hk⟩ := hk; exact hk rfl
    simp only [lib, if_neg this]
    decide
  get := by
    intro nodes m hm hk k
    rcases hm with rfl | ⟨l, h1, h2, rfl⟩
    · obtain ⟨k, hk⟩ := hk; exact absurd rfl hk
    · simp only [lib, content_ser h2]
  update := by
    intro nodes m cs hm
    obtain ⟨l, hl, hm'⟩ : ∃ l, (if (if lib.rootOf m = lib.emptyRoot then none else some (lib.rootOf m)) = none then []
        else content nodes) = l ∧ m = look l := by
      rcases hm with rfl | ⟨l, h1, h2, rfl⟩
      · exact ⟨[], by simp [lib], by funext k; rfl⟩
      · refine ⟨l, ?_, rfl⟩
        have hr : ¬ lib.rootOf (look l) = lib.emptyRoot := by
          simp only [lib, if_neg (look_some h1)]
          decide
        rw [if_neg hr, if_neg (by simp), content_ser h2]
    have hlook : applyChanges m cs = look (cs.foldl change l) := by rw [look_changes, hm']
    have hup : lib.update nodes (if lib.rootOf m = lib.emptyRoot then none else some (lib.rootOf m)) cs =
        match cs.foldl change l with
        | [] => some ⟨55, [], [top]⟩
        | e :: l => some ⟨top, [(top, ser (e :: l))], []⟩ := by
      rw [← hl]; rfl
    rw [hup, hlook]
    cases hc : cs.foldl change l with
    | nil =>
      refine ⟨_, rfl, ?_, Or.inl (by funext k; rfl), by simp, ?_⟩
      · have : look [] = fun _ => none := by funext k; rfl
        simp [lib, this]
      · intro h hh
        simp only [List.mem_singleton] at hh
        subst hh
        decide
    | cons e r =>
      refine ⟨_, rfl, ?_, Or.inr ⟨e :: r, by simp, ?_, rfl⟩, ?_, by simp⟩
      · simp [lib, look_some (l := e :: r) (by simp)]
      · simp [Delta.apply]
      · intro x hx
        simp only [List.mem_singleton] at hx
        subst hx
        show top ≠ K []
        decide
  clear := fun _ _ _ _ => ⟨[top], rfl⟩

def alice : Address := 0xa1
def token : Address := 0x70
def bob : Address := 0xb0

/-- A history: genesis, a contract with two slots, a slot set to zero and another written, the contract destroyed and
created again with other storage, an account with storage deleted, blocks in between. -/
def ops : List Op :=
  [ .genesis [(alice, 1000)],
    .bundle ⟨[(alice, some ⟨1, 900, K []⟩), (token, some ⟨1, 100, K [1, 2, 3]⟩),
        (bob, some ⟨0, 5, K [1, 2, 3]⟩)], [(K [1, 2, 3], [1, 2, 3])],
      [⟨token, false, [(3, 5), (4, 6)]⟩, ⟨bob, false, [(4, 1)]⟩]⟩,
    .trie [List.replicate 40 7],
    .block 1 101,
    .bundle ⟨[], [], [⟨token, false, [(3, 0), (4, 7)]⟩]⟩,
    .block 2 102,
    .bundle ⟨[(token, some ⟨1, 50, K [1, 2, 3]⟩), (bob, none)], [], [⟨token, true, [(3, 8)]⟩]⟩,
    .clearCache,
    .block 3 103 ]

def scope : Scope :=
  { addresses := [alice, token, bob]
    slots := [3, 4]
    codes := [[1, 2, 3]]
    nodes := [List.replicate 40 7]
    numbers := [0, 1, 2, 3] }

theorem noCollision : scope.NoCollision lib := by
  have h1 : ∀ x ∈ scope.preimages, ∀ y ∈ scope.preimages, K x = K y → x = y := by decide +kernel
  have h2 : ∀ x ∈ scope.preimages, K x ≠ 0 := by decide +kernel
  exact ⟨h1, h2⟩

theorem largeNodes : scope.LargeNodes := by unfold Scope.LargeNodes; decide +kernel

theorem codesApart : scope.CodesApart := by
  intro c hc
  simp only [scope, List.mem_singleton] at hc
  subst hc
  refine ⟨fun a _ h => ?_, fun n _ h => ?_⟩
  · have := congrArg List.length h
    rw [addressBytes_length] at this
    simp at this
  · have := congrArg List.length h
    rw [numberBytes_length] at this
    simp at this

theorem covers : ∀ op ∈ ops, scope.Covers lib op := by
  intro op hop
  simp only [ops, List.mem_cons, List.not_mem_nil, or_false] at hop
  have hK : ∀ b, lib.K b = K b := fun _ => rfl
  rcases hop with rfl | rfl | rfl | rfl | rfl | rfl | rfl | rfl | rfl <;>
    simp only [Scope.Covers, hK] <;> decide +kernel

/-- The hypotheses hold for the history, and its state is not trivial. -/
example : (world lib ops).account token = some ⟨1, 50, K [1, 2, 3]⟩ ∧ (world lib ops).storage token 3 = 8 ∧
    (world lib ops).storage token 4 = 0 ∧ (world lib ops).account alice = some ⟨1, 900, K []⟩ ∧
    (world lib ops).blockHash 2 = some 102 := by
  decide +kernel

example : ∃ db, run lib true ops = some db ∧ storage lib db token 3 = some 8 ∧ storage lib db token 4 = some 0 := by
  obtain ⟨db, h1, _, h2, _⟩ := C65_reads_partial lib Holds sound scope noCollision largeNodes codesApart true ops covers
  have hne : (world lib ops).account token ≠ none := by decide +kernel
  refine ⟨db, h1, (h2 token (by decide) hne 3 (by decide)).trans ?_, (h2 token (by decide) hne 4 (by decide)).trans ?_⟩
  · have : (world lib ops).storage token 3 = 8 := by decide +kernel
    rw [this]
  · have : (world lib ops).storage token 4 = 0 := by decide +kernel
    rw [this]

example : bob ∈ scope.addresses ∧ (world lib ops).account bob = none := by decide +kernel

example : (0 : UInt64) ∈ scope.numbers := by decide

example : Consecutive (blocksOf ops) := by
  refine ⟨by decide, fun k b hb => ?_⟩
  have : (blocksOf ops) = [(1, 101), (2, 102), (3, 103)] := by rfl
  rw [this] at hb
  match k, hb with
  | 0, hb => cases hb; rfl
  | 1, hb => cases hb; rfl
  | 2, hb => cases hb; rfl

/-- The record of an account can be overwritten: no 20 bytes that start with a zero are an account. -/
example : lib.decodeAccount (addressBytes alice) = none ∧ lib.K (addressBytes alice) ≠ lib.K [] ∧
    lib.K (addressBytes alice) ≠ 0 := by
  refine ⟨?_, ?_, ?_⟩
  · have : (addressBytes alice).head? ≠ some 9 := by decide +kernel
    exact if_neg this
  · show K _ ≠ K _
    decide +kernel
  · show K _ ≠ 0
    decide +kernel

end EvmDbExample

end Verif.Props
