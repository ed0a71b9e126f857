import Verif.Lemmas.TrieItems

/-! # C62: trie walks, C63: slices of the key space, C64: the content of a state snapshot -/

namespace Verif.Props
open Verif.Trie Verif.StateContent Verif.TrieWalker

/-! ## C62 -/

/-- Whatever the database holds, every node that a walk yields, full, filtered or partial, at any time before it fails,
comes with a proof that is accepted for its path and the root that the walk started with. -/
theorem C62_sound (env : Env) (root : Id) (db : Db) (filter : Option Filter) (w w' : Walker) (n : Nat) (out : List Proof)
    (hdb : Addressed env db) (hext : ∀ b pre n, env.decode b = some (.extension pre n) → pre ≠ [])
    (hnew : Walker.new root db filter = some w ∨ Walker.newPartial root db = some w)
    (hrun : w.take env n = some (out, w')) :
    ∀ q ∈ out, ∃ last, q.proof.getLast? = some last ∧
      validateNodeTrieProof env (some root) (env.K last) q.path q.proof = .ok () := by
  have hstart : w.db = db ∧ ∀ q ∈ w.stack, Good env root q := by
    rcases hnew with h | h
    · unfold Walker.new at h
      split at h
      · next b hb =>
        cases h
        refine ⟨rfl, fun q hq => ?_⟩
        simp only [List.mem_singleton] at hq
        subst hq
        exact good_root (hdb _ _ hb)
      · cases h
    · unfold Walker.newPartial at h
      split at h
      · next b hb =>
        cases h
        refine ⟨rfl, fun q hq => ?_⟩
        simp only [List.mem_singleton] at hq
        subst hq
        exact good_root (hdb _ _ hb)
      · cases h
        exact ⟨rfl, fun q hq => (nomatch hq)⟩
      · cases h
  intro q hq
  exact (take_good hext n w w' out (hstart.1 ▸ hdb) hrun hstart.2 q hq).validates

/-- A walk over a trie whose nodes the database has ends without a failure. It yields exactly the nodes stored by hash
whose path the filter admits, each once, in the order of the paths. -/
theorem C62_complete (env : Env) (nodes : List Bytes) (root : Id) (t : PTrie) (db : Db) (filter : Option Filter)
    (hg : Genuine env nodes root t) (hdb : Has env db nodes) (hf : Slice filter) :
    ∃ w out, Walker.new root db filter = some w ∧ Yields env w out ∧
      (∀ path b, (∃ q ∈ out, q.path = path ∧ q.proof.getLast? = some b) ↔
        StoredAt env nodes (.hash root) path b ∧ Admits filter path) ∧
      (out.Pairwise fun a b => a.path < b.path) ∧
      ∀ q ∈ out, ∃ last, q.proof.getLast? = some last ∧
        validateNodeTrieProof env (some root) (env.K last) q.path q.proof = .ok () := by
  obtain ⟨w, out, h1, h2, h3⟩ := full_walk hg hdb hf
  exact ⟨w, out, h1, h2, h3.exact, h3.ordered, fun q hq => (h3.good q hq).validates⟩

/-- A partial walk ends too, and yields exactly the nodes that can be reached through nodes that the database has. -/
theorem C62_partial_trie (env : Env) (nodes : List Bytes) (root : Id) (t : PTrie) (db : Db)
    (hg : Genuine env nodes root t) (hdb : Answers env db nodes) :
    ∃ w out, Walker.newPartial root db = some w ∧ Yields env w out ∧
      (∀ path b, (∃ q ∈ out, q.path = path ∧ q.proof.getLast? = some b) ↔
        StoredAt env (available env db nodes) (.hash root) path b) ∧
      (out.Pairwise fun a b => a.path < b.path) ∧
      ∀ q ∈ out, ∃ last, q.proof.getLast? = some last ∧
        validateNodeTrieProof env (some root) (env.K last) q.path q.proof = .ok () := by
  obtain ⟨w, out, h1, h2, h3⟩ := partial_walk hg hdb
  refine ⟨w, out, h1, h2, fun p b => ?_, h3.ordered, fun q hq => (h3.good q hq).validates⟩
  rw [h3.exact]
  exact ⟨fun h => h.1, fun h => ⟨h, fun f hf => by cases hf⟩⟩

/-- A full walk fails if a node is missing, and does not skip it: if it yields a node that refers to a hash that is
not in the database, it has failed. -/
theorem C62_missing (env : Env) (root : Id) (db : Db) (w : Walker) (out : List Proof)
    (hnew : Walker.new root db none = some w) (hrun : Yields env w out) (q : Proof) (hq : q ∈ out) (last : Bytes)
    (hl : q.proof.getLast? = some last) :
    (∀ pre h, env.decode last = some (.extension pre (.hash h)) → ∃ b, db h = some (some b)) ∧
    (∀ ns v, env.decode last = some (.branch ns v) → ∀ i h, ns i = .hash h → ∃ b, db h = some (some b)) := by
  have hw : w.isPartial = false ∧ w.filter = none ∧ w.db = db := by
    unfold Walker.new at hnew
    split at hnew
    · cases hnew; exact ⟨rfl, rfl, rfl⟩
    · cases hnew
  obtain ⟨n, hn⟩ := hrun
  have hall := hn n (Nat.le_refl n)
  have htake : ∃ w', w.take env n = some (out, w') := by
    unfold Walker.all at hall
    split at hall
    · next o w' ht =>
      split at hall
      · cases hall; exact ⟨w', ht⟩
      · cases hall
    · cases hall
  obtain ⟨w', ht⟩ := htake
  have hk := take_kids n w w' out ht q hq
  have hch : ∀ pr path h c, child env w pr path (.hash h) = some c → ∃ b, db h = some (some b) := by
    intro pr path h c hc
    unfold child Walker.admits at hc
    rw [hw.2.1] at hc
    simp only at hc
    cases hf : w.fetch env h with
    | none => rw [hf] at hc; cases hc
    | some e =>
      cases e with
      | none =>
        exfalso
        unfold Walker.fetch at hf
        rw [hw.1] at hf
        split at hf
        · cases hf
        · simp at hf
        · split at hf <;> cases hf
      | some b =>
        have := fetch_some hf
        rw [hw.2.2] at this
        exact ⟨b, this⟩
  obtain ⟨cs, hcs⟩ := hk
  unfold kids at hcs
  rw [hl] at hcs
  simp only at hcs
  constructor
  · intro pre h hd
    rw [hd] at hcs
    simp only at hcs
    cases hc : child env w q.proof (q.path ++ pre) (.hash h) with
    | none => rw [hc] at hcs; cases hcs
    | some c => exact hch _ _ h c hc
  · intro ns v hd i h hi
    rw [hd] at hcs
    simp only at hcs
    cases hm : ((List.finRange 16).reverse.mapM fun i => child env w q.proof (q.path ++ [UInt8.ofNat i.val]) (ns i)) with
    | none => rw [hm] at hcs; cases hcs
    | some cs' =>
      obtain ⟨c, hc⟩ := mapM_some_all hm i (by simp)
      rw [hi] at hc
      exact hch _ _ h c hc

/-- The content built from a yielded node is accepted as canonical under the key built from it, which names the path and
the hash of the node. -/
theorem C62_content (env : Env) (nodes : List Bytes) (root : Id) (t : PTrie) (db : Db) (filter : Option Filter)
    (hg : Genuine env nodes root t) (hdb : Has env db nodes) (hf : Slice filter) (hs : ∀ b ∈ nodes, b.length ≤ 1024)
    (w : Walker) (out : List Proof) (hnew : Walker.new root db filter = some w) (hout : Yields env w out) (blockHash : Id) :
    ∀ q ∈ out, ∃ last, q.proof.getLast? = some last ∧
      accountKey env q = some (.accountTrieNode q.path (env.K last)) ∧
      validateContent env (.accountTrieNode q.path (env.K last)) (accountValue blockHash q).encode =
        some .canonicallyValid := by
  obtain ⟨w', out', h1, h2, h3⟩ := full_walk hg hdb hf
  rw [hnew] at h1
  cases h1
  obtain ⟨n, hn⟩ := hout
  obtain ⟨m, hm⟩ := h2
  have e1 := hn (n + m) (by omega)
  have e2 := hm (n + m) (by omega)
  rw [e1] at e2
  cases e2
  intro q hq
  obtain ⟨b, hb⟩ := h3.last q hq
  exact ⟨b, hb, account_item (h3.good q hq) (walk_fit h3 hs q hq) hb blockHash⟩

/-! ## C63 -/

/-- A filter admits a path exactly if a full key below the path lies in its slice. Paths of up to 64 nibbles never make
it panic. -/
theorem C63_exact (index count : UInt16) (f : Filter) (hf : Filter.new index count = some f) (path : List UInt8)
    (hl : path.length ≤ 64) (hn : Nibble path) :
    ∃ b, f.contains path = some b ∧ (b = true ↔ f.Meets path) :=
  contains_iff (new_bounds hf).1 hl hn

/-- A slice exists for every index below the count. -/
theorem C63_new (index count : UInt16) :
    (Filter.new index count).isSome ↔ index < count ∨ count.toNat < 2 := by
  rw [UInt16.lt_iff_toNat_lt]
  by_cases h2 : 2 ≤ count.toNat
  · by_cases hi : index.toNat < count.toNat
    · rw [(new_eq h2 hi).1]; simp [hi]
    · rw [new_none h2 (by omega)]; simp; omega
  · rw [new_one (by omega)]; simp; omega

/-- Every full key is in exactly one of the slices. -/
theorem C63_partition (count : UInt16) (hc : 0 < count) (key : List UInt8) (hl : key.length = 64) (hn : Nibble key) :
    ∃ index f, index < count ∧ Filter.new index count = some f ∧ f.contains key = some true ∧
      ∀ index' f', index' < count → Filter.new index' count = some f' → f'.contains key = some true → index' = index := by
  have hval := nibblesValue_lt key hn
  rw [hl] at hval
  have hM : nibblesValue key ≤ maxU256 := by
    unfold maxU256
    have : (16 : Nat) ^ 64 = 2 ^ 256 := by decide
    omega
  have hmeets : ∀ {f : Filter}, f.Meets key ↔ f.start ≤ nibblesValue key ∧ nibblesValue key ≤ f.stop := by
    intro f
    constructor
    · rintro ⟨k, h1, h2, h3, h4⟩
      have : key = k := h3.eq_of_length (by omega)
      subst this
      exact h4
    · intro h
      exact ⟨key, hl, hn, List.prefix_refl _, h.1, h.2⟩
  have hcon : ∀ {i f}, Filter.new i count = some f →
      (f.contains key = some true ↔ f.start ≤ nibblesValue key ∧ nibblesValue key ≤ f.stop) := by
    intro i f hf
    obtain ⟨b, h1, h2⟩ := C63_exact i count f hf key (by omega) hn
    rw [h1, ← hmeets, ← h2]
    simp
  rw [UInt16.lt_iff_toNat_lt] at hc
  by_cases h2 : 2 ≤ count.toNat
  · have hcl : count.toNat < 65536 := count.toNat_lt
    obtain ⟨_, _, hbig⟩ := new_eq (index := 0) h2 (by simp; omega)
    have hq : nibblesValue key / (maxU256 / count.toNat + 1) < count.toNat :=
      (Nat.div_lt_iff_lt_mul (Nat.succ_pos _)).mpr (Nat.lt_of_le_of_lt hM hbig)
    have hin : ∀ index : UInt16, index.toNat < count.toNat → ∀ f, Filter.new index count = some f →
        (f.contains key = some true ↔ index.toNat = nibblesValue key / (maxU256 / count.toNat + 1)) := by
      intro index hi f hf
      rw [hcon hf]
      rw [(new_eq h2 hi).1] at hf
      cases hf
      simp only
      generalize maxU256 / count.toNat = s at *
      generalize nibblesValue key = v at *
      have hdm := Nat.div_add_mod v (s + 1)
      have hml := Nat.mod_lt v (show 0 < s + 1 by omega)
      constructor
      · rintro ⟨h3, h4⟩
        refine (Nat.div_eq_of_lt_le h3 ?_).symm
        split at h4
        · next e => rw [e]; omega
        · have : (index.toNat + 1) * (s + 1) = index.toNat * (s + 1) + (s + 1) := by rw [Nat.add_mul]; omega
          omega
      · intro e
        rw [← e] at hdm
        have e' : (s + 1) * index.toNat = index.toNat * (s + 1) := Nat.mul_comm _ _
        have : (index.toNat + 1) * (s + 1) = index.toNat * (s + 1) + (s + 1) := by rw [Nat.add_mul]; omega
        refine ⟨by omega, ?_⟩
        split
        · exact hM
        · omega
    have hidx : (UInt16.ofNat (nibblesValue key / (maxU256 / count.toNat + 1))).toNat =
        nibblesValue key / (maxU256 / count.toNat + 1) := by
      rw [UInt16.toNat_ofNat']; exact Nat.mod_eq_of_lt (by omega)
    have hlt : (UInt16.ofNat (nibblesValue key / (maxU256 / count.toNat + 1))).toNat < count.toNat := by rw [hidx]; exact hq
    refine ⟨_, _, UInt16.lt_iff_toNat_lt.mpr hlt, (new_eq h2 hlt).1, ?_, ?_⟩
    · exact (hin _ hlt _ (new_eq h2 hlt).1).mpr hidx
    · intro index' f' hi' hf' hcon'
      rw [UInt16.lt_iff_toNat_lt] at hi'
      apply UInt16.toNat_inj.mp
      rw [hidx]
      exact (hin index' hi' f' hf').mp hcon'
  · have h1 : count.toNat = 1 := by simp at hc; omega
    refine ⟨0, ⟨0, maxU256⟩, UInt16.lt_iff_toNat_lt.mpr (by simp; omega), new_one (by omega), ?_, ?_⟩
    · exact (hcon (i := 0) (new_one (by omega))).mpr ⟨Nat.zero_le _, hM⟩
    · intro i f hi _ _
      rw [UInt16.lt_iff_toNat_lt] at hi
      apply UInt16.toNat_inj.mp
      simp; omega

/-- No path is outside all slices. -/
theorem C63_cover (count : UInt16) (hc : 0 < count) (path : List UInt8) (hl : path.length ≤ 64) (hn : Nibble path) :
    ∃ index f, index < count ∧ Filter.new index count = some f ∧ f.contains path = some true := by
  have hpad : (path ++ List.replicate (64 - path.length) 0).length = 64 := by simp; omega
  have hpn : Nibble (path ++ List.replicate (64 - path.length) 0) := by
    refine nibble_append hn fun n h => ?_
    rw [List.eq_of_mem_replicate h]
    decide
  obtain ⟨i, f, h1, h2, h3, _⟩ := C63_partition count hc _ hpad hpn
  obtain ⟨b, h4, h5⟩ := C63_exact i count f h2 _ (by omega) hpn
  rw [h4] at h3
  obtain ⟨b', h6, h7⟩ := C63_exact i count f h2 path hl hn
  refine ⟨i, f, h1, h2, ?_⟩
  rw [h6]
  congr 1
  exact h7.mpr (h5.mp (Option.some.inj h3)).prefix

/-- The walks of all slices together yield what the walk without filter yields. -/
theorem C63_walks (env : Env) (nodes : List Bytes) (root : Id) (t : PTrie) (db : Db) (count : UInt16) (hc : 0 < count)
    (hg : Genuine env nodes root t) (hdb : Has env db nodes) (path : List UInt8) (b : Bytes) :
    StoredAt env nodes (.hash root) path b ↔ ∃ index f w out, index < count ∧ Filter.new index count = some f ∧
      Walker.new root db (some f) = some w ∧ Yields env w out ∧ ∃ q ∈ out, q.path = path ∧ q.proof.getLast? = some b := by
  constructor
  · intro h
    have hs := served_of (env := env) (nodes := nodes) (w := ⟨false, db, [], none⟩) .none hg.stored fun b hb => .inl (hdb b hb)
    have hp := stored_path hs hg.commits hg.keys (by rw [available_all hdb]; exact h)
    obtain ⟨i, f, h1, h2, h3⟩ := C63_cover count hc path hp.1 hp.2
    obtain ⟨b', h4, h5⟩ := C63_exact i count f h2 path hp.1 hp.2
    rw [h4] at h3
    obtain ⟨w, out, g1, g2, g3, _⟩ := C62_complete env nodes root t db (some f) hg hdb (.some i count f h2)
    refine ⟨i, f, w, out, h1, h2, g1, g2, (g3 path b).mpr ⟨h, fun f' hf' => ?_⟩⟩
    cases hf'
    exact h5.mp (Option.some.inj h3)
  · rintro ⟨i, f, w, out, h1, h2, h3, ⟨n, hn⟩, hq⟩
    obtain ⟨w', out', g1, ⟨m, hm⟩, g3, _⟩ := C62_complete env nodes root t db (some f) hg hdb (.some i count f h2)
    rw [h3] at g1
    cases g1
    have e1 := hn (n + m) (by omega)
    have e2 := hm (n + m) (by omega)
    rw [e1] at e2
    cases e2
    exact ((g3 path b).mp hq).1

/-! ## C64 -/

/-- Gossiping a snapshot does not fail. The keys of the items are exactly those of the nodes of the account trie, and of
the code and the storage nodes of every account, each once; and every item is accepted as canonical. -/
theorem C64_snapshot (env : Env) (empty : TrieWalker.Empty) (src : Source) (root blockHash : Id) (s : TrieWalker.State env empty src root) :
    ∃ n items, (∀ m, n ≤ m → snapshotItems env empty src blockHash m root = some items) ∧
      (∀ key, key ∈ items.map (·.1) ↔ s.Content key) ∧ (items.map (·.1)).Nodup ∧
      ∀ item ∈ items, validateContent env item.1 item.2.encode = some .canonicallyValid := by
  obtain ⟨n, items, h1, h2, h3⟩ := snapshot_items s blockHash
  exact ⟨n, items, h1, h3, h2.nodup, h2.valid⟩

/-- A bridge id is accepted exactly if it is between 1 and the total. -/
theorem C64_bridge_id (id total : Nat) :
    BridgeId.parse id total = if 1 ≤ id ∧ id ≤ total then some ⟨id, total⟩ else none := by
  unfold BridgeId.parse
  by_cases h1 : id > total
  · rw [if_pos h1, if_neg (by omega)]
  · rw [if_neg h1]
    by_cases h2 : id = 0 ∨ total = 0
    · rw [if_pos h2, if_neg (by omega)]
    · rw [if_neg h2, if_pos (by omega)]

theorem selected_iff {id total i : Nat} (h1 : 1 ≤ id) (h2 : id ≤ total) :
    BridgeId.isSelected ⟨id, total⟩ i = true ↔ i % total = id - 1 := by
  unfold BridgeId.isSelected
  simp only
  split
  · next h => subst h; simp; omega
  · simp

/-- Every item is offered by exactly one of the bridges. -/
theorem C64_one_bridge (total i : Nat) (ht : 1 ≤ total) :
    ∃ id b, BridgeId.parse id total = some b ∧ b.isSelected i = true ∧
      ∀ id' b', BridgeId.parse id' total = some b' → b'.isSelected i = true → id' = id := by
  have hlt := Nat.mod_lt i ht
  refine ⟨i % total + 1, ⟨i % total + 1, total⟩, ?_, ?_, ?_⟩
  · rw [C64_bridge_id, if_pos (by omega)]
  · rw [selected_iff (by omega) (by omega)]; omega
  · intro id' b' hp hs
    rw [C64_bridge_id] at hp
    split at hp
    · next h =>
      cases hp
      rw [selected_iff h.1 h.2] at hs
      omega
    · cases hp

theorem filter_classes {α : Type} (l : List α) (f : α → Nat) : ∀ n,
    ((List.range n).flatMap fun j => l.filter fun x => f x = j).Perm (l.filter fun x => f x < n)
  | 0 => by simp
  | n + 1 => by
    rw [List.range_succ, List.flatMap_append]
    simp only [List.flatMap_cons, List.flatMap_nil, List.append_nil]
    refine ((filter_classes l f n).append_right _).trans ?_
    have h1 : (l.filter fun x => f x < n) = (l.filter fun x => f x < n + 1).filter fun x => f x < n := by
      rw [List.filter_filter]
      congr 1
      funext x
      rw [Bool.eq_iff_iff]
      simp only [decide_eq_true_eq, Bool.and_eq_true]
      omega
    have h2 : (l.filter fun x => f x = n) = (l.filter fun x => f x < n + 1).filter fun x => !(decide (f x < n)) := by
      rw [List.filter_filter]
      congr 1
      funext x
      rw [Bool.eq_iff_iff]
      simp only [decide_eq_true_eq, Bool.and_eq_true, Bool.not_eq_true', decide_eq_false_iff_not]
      omega
    rw [h1, h2]
    exact List.filter_append_perm _ _

/-- What all bridges offer is, together, all items, each as often as it occurs. -/
theorem C64_all_bridges (total : Nat) (ht : 1 ≤ total) (items : List Item) :
    ((List.range total).flatMap fun j => offered ⟨j + 1, total⟩ items).Perm items := by
  have h := (filter_classes items.zipIdx (fun x => x.2 % total) total).map (·.1)
  have hall : (items.zipIdx.filter fun x => x.2 % total < total) = items.zipIdx := by
    rw [List.filter_eq_self]
    intro x _
    simpa using Nat.mod_lt _ ht
  rw [hall, List.zipIdx_map_fst, List.map_flatMap] at h
  refine List.Perm.trans (List.Perm.of_eq ?_) h
  have : ∀ l : List Nat, (∀ j ∈ l, j < total) → (l.flatMap fun j => offered ⟨j + 1, total⟩ items) =
      l.flatMap fun j => (items.zipIdx.filter fun x => x.2 % total = j).map (·.1) := by
    intro l
    induction l with
    | nil => intro _; rfl
    | cons j l ih =>
      intro hj
      rw [List.flatMap_cons, List.flatMap_cons, ih fun k hk => hj k (.tail _ hk)]
      congr 1
      unfold offered
      congr 1
      refine List.filter_congr fun x _ => ?_
      have := selected_iff (i := x.2) (id := j + 1) (total := total) (by omega) (by have := hj j (.head _); omega)
      rw [Bool.eq_iff_iff, this]
      simp
  exact this _ fun j hj => List.mem_range.mp hj

namespace TrieWalkerExample

/-! An account trie of a branch with two leaves; the first account has code and a storage trie of a branch with a
hashed and a contained leaf. -/

def K (b : Bytes) : Id := BitVec.ofNat 256 (fromBe (b.take 31))

def empty : TrieWalker.Empty := ⟨1000, 1001⟩
def full : Account := ⟨1, 2, K [4], K [1, 1]⟩
def plain : Account := ⟨0, 0, 1001, 1000⟩

def n1 : Node := .branch (fun i => if i.val = 2 then .hash (K [2]) else if i.val = 7 then .hash (K [3]) else .empty) none
def n2 : Node := .leaf (List.replicate 63 0 ++ [16]) [9]
def n3 : Node := .leaf (List.replicate 63 1 ++ [16]) [8]
def n4 : Node := .branch (fun i => if i.val = 0 then .hash (K [5]) else if i.val = 1 then .leaf (List.replicate 63 0 ++ [16]) [7] else .empty) none
def n5 : Node := .leaf (List.replicate 63 2 ++ [16]) [6]
def n6 : Node := .branch (fun i => if i.val = 7 then .hash (K [3]) else if i.val = 9 then .hash (K [3]) else .empty) none

def env : Env :=
  { K := K
    decode := fun b => if b = [1] then some n1 else if b = [2] then some n2 else if b = [3] then some n3
      else if b = [4] then some n4 else if b = [5] then some n5 else if b = [6] then some n6
      else if b = [128] then some .empty else none
    decodeAccount := fun v => if v = [9] then some full else if v = [8] then some plain else none }

def trie : PTrie := .branch (fun i => if i.val = 2 then .leaf (List.replicate 63 0) [9]
  else if i.val = 7 then .leaf (List.replicate 63 1) [8] else .empty) none
def store : PTrie := .branch (fun i => if i.val = 0 then .leaf (List.replicate 63 2) [6]
  else if i.val = 1 then .leaf (List.replicate 63 0) [7] else .empty) none

def db : Db := fun h => some ([[1], [2], [3], [4], [5], [6]].find? fun b => K b = h)
def src : Source := { trie := db, code := fun h => if h = K [1, 1] then some [1, 1] else none, storage := fun _ => db }

theorem nib (n : Nat) (x : UInt8) (h : x.toNat < 16) : Nibble (List.replicate n x) := by
  intro m hm
  rw [List.eq_of_mem_replicate hm]
  exact h

theorem keys63 (v : Bytes) (x : UInt8) (h : x.toNat < 16) : (PTrie.leaf (List.replicate 63 x) v).Keys 63 := by
  have := PTrie.Keys.leaf (List.replicate 63 x) v (nib 63 x h)
  rw [List.length_replicate] at this
  exact this

theorem stored : ∀ b n, b ≠ [128] → env.decode b = some n → Stored n := by
  intro b n hne h
  simp only [env] at h
  repeat' split at h
  all_goals first | cases h; done | skip
  all_goals (cases h)
  · refine .branch _ _ fun i => ?_
    split
    · exact .hash _
    · split
      · exact .hash _
      · exact .inline _ .empty
  · exact .leaf _ _
  · exact .leaf _ _
  · refine .branch _ _ fun i => ?_
    split
    · exact .hash _
    · split
      · exact .inline _ (.leaf _ _)
      · exact .inline _ .empty
  · exact .leaf _ _
  · refine .branch _ _ fun i => ?_
    split
    · exact .hash _
    · split
      · exact .hash _
      · exact .inline _ .empty

theorem genuine : Genuine env [[1], [2], [3]] (K [1]) trie where
  commits := by
    refine .hash [1] n1 _ (by simp) rfl (.branch _ _ _ fun i => ?_)
    by_cases h : i.val = 2
    · simp only [h, if_true]; exact .hash [2] n2 _ (by simp) rfl (.leaf _ _)
    · by_cases h' : i.val = 7
      · simp only [h', if_true]; exact .hash [3] n3 _ (by simp) rfl (.leaf _ _)
      · simp only [h, h', if_false]; exact .empty
  keys := by
    refine .branch _ 63 fun i => ?_
    split
    · exact keys63 _ _ (by decide)
    · split
      · exact keys63 _ _ (by decide)
      · exact .empty _
  stored := fun b hb n h => stored b n (by rintro rfl; revert hb; decide) h

theorem genuine' : Genuine env [[4], [5]] (K [4]) store where
  commits := by
    refine .hash [4] n4 _ (by simp) rfl (.branch _ _ _ fun i => ?_)
    by_cases h : i.val = 0
    · simp only [h, if_true]; exact .hash [5] n5 _ (by simp) rfl (.leaf _ _)
    · by_cases h' : i.val = 1
      · simp only [h', if_true]; exact .leaf _ _
      · simp only [h, h', if_false]; exact .empty
  keys := by
    refine .branch _ 63 fun i => ?_
    split
    · exact keys63 _ _ (by decide)
    · split
      · exact keys63 _ _ (by decide)
      · exact .empty _
  stored := fun b hb n h => stored b n (by rintro rfl; revert hb; decide) h

theorem lookup_cases {path : List UInt8} {v : Bytes} (h : trie.lookup path = some v) : v = [9] ∨ v = [8] := by
  unfold trie at h
  cases path with
  | nil => cases h
  | cons a path =>
    simp only [PTrie.lookup] at h
    split at h
    · split at h
      · simp only [PTrie.lookup] at h
        split at h <;> cases h
        exact .inl rfl
      · split at h
        · simp only [PTrie.lookup] at h
          split at h <;> cases h
          exact .inr rfl
        · cases h
    · cases h

/-- A state with all parts. -/
def state : TrieWalker.State env empty src (K [1]) where
  nodes := [[1], [2], [3]]
  trie := trie
  genuine := genuine
  noEmptyKeys := by
    refine .branch _ _ fun i => ?_
    split
    · exact .leaf _ _ (by simp)
    · split
      · exact .leaf _ _ (by simp)
      · exact .empty
  sparse := by
    intro b hb n h
    simp only [List.mem_cons, List.not_mem_nil, or_false] at hb
    rcases hb with rfl | rfl | rfl
    · have : n1 = n := Option.some.inj h
      subst this
      refine .branch _ _ fun i => ?_
      split
      · exact .inr ⟨_, rfl⟩
      · split
        · exact .inr ⟨_, rfl⟩
        · exact .inl rfl
    · have : n2 = n := Option.some.inj h
      subst this; exact .leaf _ _
    · have : n3 = n := Option.some.inj h
      subst this; exact .leaf _ _
  has := by unfold Has; decide +kernel
  small := by decide +kernel
  accounts := by
    intro path v h
    rcases lookup_cases h with rfl | rfl <;> decide +kernel
  code := by
    intro path v a h ha hne
    rcases lookup_cases h with rfl | rfl
    · have : full = a := Option.some.inj ha
      subst this
      exact ⟨[1, 1], by decide +kernel, by decide +kernel, by decide +kernel⟩
    · have : plain = a := Option.some.inj ha
      subst this
      exact absurd rfl hne
  storageNodes := fun _ => [[4], [5]]
  storage := by
    intro address v a h ha hne
    rcases lookup_cases h with rfl | rfl
    · have : full = a := Option.some.inj ha
      subst this
      exact ⟨⟨store, genuine'⟩, (by unfold Has; decide +kernel : Has env db [[4], [5]]), by decide +kernel⟩
    · have : plain = a := Option.some.inj ha
      subst this
      exact absurd rfl hne

-- the walk, with and without filter, and a partial one
example : ((Walker.new (K [1]) db none).bind fun w => w.all env 5) =
    some [⟨[], [[1]]⟩, ⟨[2], [[1], [2]]⟩, ⟨[7], [[1], [3]]⟩] := by decide +kernel
example : (Filter.new 1 3).bind (fun f => (Walker.new (K [1]) db (some f)).bind fun w => w.all env 5) =
    some [⟨[], [[1]]⟩, ⟨[7], [[1], [3]]⟩] := by decide +kernel
example : ((Walker.newPartial (K [1]) (fun h => if h = K [2] then some none else db h)).bind fun w => w.all env 5) =
    some [⟨[], [[1]]⟩, ⟨[7], [[1], [3]]⟩] := by decide +kernel
-- a full walk does not skip a missing node
example : ((Walker.new (K [1]) (fun h => if h = K [2] then some none else db h) none).bind fun w => w.all env 5) = none := by
  decide +kernel
example : Slice none := .none
example : ∃ f, Slice (some f) := ⟨_, .some 1 3 _ rfl⟩
-- the database is addressed by hash
example : Addressed env db := by
  intro h b hb
  simp only [db, Option.some.injEq] at hb
  have := List.find?_some hb
  exact of_decide_eq_true this
-- slices of three: the boundary
example : Filter.new 0 3 = some ⟨0, (2 ^ 256 - 1) / 3⟩ := by decide +kernel
example : Filter.new 1 3 = some ⟨(2 ^ 256 - 1) / 3 + 1, 2 * ((2 ^ 256 - 1) / 3) + 1⟩ := by decide +kernel
example : Filter.new 2 3 = some ⟨2 * ((2 ^ 256 - 1) / 3) + 2, 2 ^ 256 - 1⟩ := by decide +kernel
example : Filter.new 3 3 = none := by decide +kernel
example : (Filter.new 0 3).bind (·.contains [5]) = some true ∧ (Filter.new 1 3).bind (·.contains [5]) = some true ∧
    (Filter.new 2 3).bind (·.contains [5]) = some false := by decide +kernel
-- all the content of the state: three account nodes, a code, two storage nodes
example : (snapshotItems env empty src 77 5 (K [1])).map (·.map (·.1)) = some
    [.accountTrieNode [] (K [1]), .accountTrieNode [2] (K [2]),
      .bytecode (BitVec.ofNat 256 (2 * 16 ^ 63)) (K [1, 1]),
      .storageTrieNode (BitVec.ofNat 256 (2 * 16 ^ 63)) [] (K [4]),
      .storageTrieNode (BitVec.ofNat 256 (2 * 16 ^ 63)) [0] (K [5]),
      .accountTrieNode [7] (K [3])] := by decide +kernel
example : state.Content (.storageTrieNode (BitVec.ofNat 256 (2 * 16 ^ 63)) [0] (K [5])) := by
  refine .storage _ [9] full [0] [5] (by show trie.lookup _ = _; decide +kernel) rfl (by decide +kernel) ?_
  exact .hash [4] n4 _ _ (by simp [state]) rfl (.branch _ _ ⟨0, by omega⟩ [] _ (.here [5] (by simp [state])))
example : BridgeId.parse 2 3 = some ⟨2, 3⟩ ∧ BridgeId.parse 0 3 = none ∧ BridgeId.parse 4 3 = none := by decide
example : (List.range 6).filter (BridgeId.isSelected ⟨2, 3⟩) = [1, 4] := by decide

end TrieWalkerExample

end Verif.Props
