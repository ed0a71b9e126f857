import Verif.Lemmas.E2ssImport
import Verif.Lemmas.E2ssWrite

namespace Verif.E2ss
open Verif.E2store hiding Header
open Verif.Archive Verif.EvmDb Verif.Trie Verif.Props.Snapshot

attribute [local irreducible] Id.bytes addressBytes numberBytes maxItems

variable {lib : Lib} {Holds : Nodes → (Id → Option Bytes) → Prop} {s : Scope}

/-! ## Content of a group -/

theorem nodup_content (lib : Lib) {l : List StorageItem} (hn : (l.map (·.index)).Nodup) (k : Id) (v : Bytes) :
    slotContent lib l k = some v ↔ ∃ x ∈ l, x.index = k ∧ lib.encodeWord x.value = v := by
  simp only [slotContent, Option.map_eq_some_iff]
  constructor
  · rintro ⟨x, hx, rfl⟩
    exact ⟨x, List.mem_reverse.mp (List.mem_of_find?_eq_some hx), by simpa using List.find?_some hx, rfl⟩
  · rintro ⟨x, hx, hk, rfl⟩
    cases hf : l.reverse.find? fun i => i.index = k with
    | none =>
      have := List.find?_eq_none.mp hf x (List.mem_reverse.mpr hx)
      simp [hk] at this
    | some y =>
      have hy := List.mem_reverse.mp (List.mem_of_find?_eq_some hf)
      have hyk : y.index = k := by simpa using List.find?_some hf
      have : y = x := by
        clear hf
        induction l with
        | nil => cases hx
        | cons z l ih =>
          rw [List.map_cons, List.nodup_cons] at hn
          rcases List.mem_cons.mp hx with rfl | hx' <;> rcases List.mem_cons.mp hy with rfl | hy'
          · rfl
          · exact absurd (List.mem_map.mpr ⟨y, hy', hyk.trans hk.symm⟩) hn.1
          · exact absurd (List.mem_map.mpr ⟨x, hx', hk.trans hyk.symm⟩) hn.1
          · exact ih hn.2 hx' hy'
      exact ⟨y, rfl, by rw [this]⟩

theorem slotMap_unique {st : Word → Word} {x y : Id → Option Bytes} (hx : SlotMap lib s st x) (hy : SlotMap lib s st y) :
    x = y := by
  funext k
  by_cases h1 : x k = none
  · by_cases h2 : y k = none
    · rw [h1, h2]
    · obtain ⟨i, hi, rfl⟩ := hy.2 k h2
      rw [hx.1 i hi, hy.1 i hi]
  · obtain ⟨i, hi, rfl⟩ := hx.2 k h1
    rw [hx.1 i hi, hy.1 i hi]

theorem slotContent_map (hc : Clear lib s) {w : World} {a : Address} {g : Group} (h : IsAccount lib s w a g) :
    SlotMap lib s (w.storage a) (slotContent lib g.slots) := by
  obtain ⟨_, _, _, hn, h1, h2⟩ := h
  constructor
  · intro i hi
    by_cases hz : w.storage a i = 0
    · rw [if_pos hz]
      cases hv : slotContent lib g.slots (lib.K (Id.bytes i)) with
      | none => rfl
      | some v =>
        obtain ⟨x, hx, hk, _⟩ := (nodup_content lib hn _ _).mp hv
        obtain ⟨j, hj, rfl, hne⟩ := h1 x hx
        have : j = i := hc.slot hj hi hk
        subst this
        exact absurd hz hne
    · rw [if_neg hz]
      exact (nodup_content lib hn _ _).mpr ⟨_, h2 i hi hz, rfl, rfl⟩
  · intro k hk
    cases hv : slotContent lib g.slots k with
    | none => exact absurd hv hk
    | some v =>
      obtain ⟨x, hx, rfl, _⟩ := (nodup_content lib hn _ _).mp hv
      obtain ⟨i, hi, rfl, _⟩ := h1 x hx
      exact ⟨i, hi, rfl⟩

theorem group_root (hc : Clear lib s) {w : World} {a : Address} {g : Group} (h : IsAccount lib s w a g) :
    g.account.state.storageRoot = lib.rootOf (slotContent lib g.slots) := by
  obtain ⟨m, hm, hr⟩ := h.2.2.1
  rw [hr, slotMap_unique hm (slotContent_map hc h)]

theorem group_code {w : World} {a : Address} (ha : a ∈ s.addresses) {g : Group} (h : IsAccount lib s w a g)
    (hk : CodesKnown lib s w) :
    (g.account.bytecode ∈ s.codes ∨ g.account.bytecode = []) ∧ lib.K g.account.bytecode = g.account.state.codeHash := by
  obtain ⟨i, h1, _, _, h2, h3⟩ := h.2.1
  obtain ⟨code, g1, g2, g3⟩ := hk a ha i h1
  rw [h3] at g2
  cases g2
  exact ⟨g1, g3.symm.trans h2.symm⟩

/-! ## Import -/

/-- One account comes from another state. -/
def loadWorld (lib : Lib) (w wi : World) (a : Address) (g : Group) : World where
  account b := if b = a then w.account a else wi.account b
  storage b := if b = a then w.storage a else wi.storage b
  code h := if g.account.bytecode ≠ [] ∧ h = lib.K g.account.bytecode then some g.account.bytecode else wi.code h
  blockHash := wi.blockHash

theorem load_group (hl : lib.Sound Holds) (hc : Clear lib s) {w wi : World} {db : Db} (h : Inv lib Holds s db wi)
    (hk : CodesKnown lib s w) {a : Address} (ha : a ∈ s.addresses) {g : Group} (hg : IsAccount lib s w a g) :
    ∃ db', importGroup lib db g = (db', true) ∧ Inv lib Holds s db' (loadWorld lib w wi a g) := by
  obtain ⟨hcm, hck⟩ := group_code ha hg hk
  have hroot := group_root hc hg
  obtain ⟨db', h1, h2⟩ : ∃ db', importGroup lib db g = (db', true) ∧ Loaded lib Holds db db' g := by
    rcases importGroup_cases hl db g with ⟨_, db', h1, h2⟩ | ⟨hn, _⟩
    · exact ⟨db', h1, h2⟩
    · exact absurd ⟨hroot.symm, hck⟩ hn
  refine ⟨db', h1, ?_⟩
  have hah : g.account.addressHash = lib.K (addressBytes a) := hg.1
  obtain ⟨i, hi, n1, n2, n3, n4⟩ := hg.2.1
  have hst : g.account.state = ⟨i.nonce, i.balance, lib.rootOf (slotContent lib g.slots), i.codeHash⟩ := by
    rw [← n1, ← n2, ← n3, ← hroot]
  have hca : lib.K g.account.bytecode ≠ g.account.addressHash := by
    rw [hah]; exact (hc.address_code ha hcm).symm
  refine ⟨?_, ?_, ?_, ?_, ?_⟩
  · intro b hb
    by_cases e : b = a
    · subst e
      refine ⟨slotContent lib g.slots, ?_, ?_, ?_, ?_⟩
      · simp only [loadWorld, if_true]; exact slotContent_map hc hg
      · rw [← hah]; exact h2.slots
      · rw [← hah, h2.record, hst]; simp [loadWorld, record, hi]
      · rw [← hah]; simp [h2.trie, hst, loadWorld, record, hi]
    · obtain ⟨m, g1, g2, g3, g4⟩ := h.good b hb
      have hkb : lib.K (addressBytes b) ≠ g.account.addressHash := by
        rw [hah]; exact fun e' => e (hc.address hb ha e')
      refine ⟨m, ?_, ?_, ?_, ?_⟩
      · simp only [loadWorld, if_neg e]; exact g1
      · rw [h2.nodes _ hkb]; exact g2
      · rw [h2.other _ hkb (Or.inr (hc.address_code hb hcm)), g3]; simp only [loadWorld, if_neg e]
      · simp only [h2.trie, if_neg hkb, g4, loadWorld, if_neg e]
  · intro b hb
    by_cases e : b = a
    · subst e; simp only [loadWorld, if_true, hi] at hb; cases hb
    · simp only [loadWorld, if_neg e] at hb ⊢; exact h.gone b hb
  · intro x hx
    rw [h2.trie] at hx
    by_cases e : x = g.account.addressHash
    · exact ⟨a, ha, e.trans hah⟩
    · simp only [if_neg e] at hx; exact h.only x hx
  · intro x c hx
    simp only [loadWorld] at hx
    split at hx
    · next e =>
      cases hx
      obtain ⟨e1, rfl⟩ := e
      exact ⟨h2.code e1 hca, Or.inl ⟨hcm, rfl⟩⟩
    · next e =>
      obtain ⟨g1, g2⟩ := h.code x c hx
      refine ⟨?_, g2⟩
      rw [h2.other x ?_ ?_]; exact g1
      · rw [hah]
        rcases g2 with ⟨g2, rfl⟩ | rfl
        · exact (hc.address_code ha g2).symm
        · exact (hc.zero (mem_address ha)).symm
      · by_cases hb : g.account.bytecode = []
        · exact Or.inl hb
        · exact Or.inr fun e' => e ⟨hb, e'⟩
  · intro n hn
    simp only [loadWorld]
    rw [h2.other _ ?_ (Or.inr (hc.number_code hn hcm))]
    · exact h.block n hn
    · rw [hah]; exact (hc.address_number ha hn).symm

/-- The accounts of these groups are those of the state, others are not there. -/
structure Partly (lib : Lib) (s : Scope) (w : World) (L : List Group) (wi : World) : Prop where
  some : ∀ a ∈ s.addresses, (∃ g ∈ L, g.account.addressHash = lib.K (addressBytes a)) →
    wi.account a = w.account a ∧ wi.storage a = w.storage a
  none : ∀ a ∈ s.addresses, (¬ ∃ g ∈ L, g.account.addressHash = lib.K (addressBytes a)) → wi.account a = none
  empty : ∀ h, h = lib.K [] ∨ h = 0 → wi.code h = Option.some []
  code : ∀ h, ¬ (h = lib.K [] ∨ h = 0) → (∃ g ∈ L, g.account.state.codeHash = h) → wi.code h = w.code h
  noCode : ∀ h, ¬ (h = lib.K [] ∨ h = 0) → (¬ ∃ g ∈ L, g.account.state.codeHash = h) → wi.code h = Option.none
  block : wi.blockHash = fun _ => Option.none

theorem Partly.load (hc : Clear lib s) {w wi : World} {L : List Group} (h : Partly lib s w L wi)
    (hk : CodesKnown lib s w) {a : Address} (ha : a ∈ s.addresses) {g : Group} (hg : IsAccount lib s w a g) :
    Partly lib s w (L ++ [g]) (loadWorld lib w wi a g) := by
  obtain ⟨hcm, hck⟩ := group_code ha hg hk
  have hah : g.account.addressHash = lib.K (addressBytes a) := hg.1
  obtain ⟨i, hi, n1, n2, n3, n4⟩ := hg.2.1
  have hex : ∀ P : Group → Prop, (∃ x ∈ L ++ [g], P x) ↔ (∃ x ∈ L, P x) ∨ P g := by
    intro P
    simp only [List.mem_append, List.mem_singleton]
    constructor
    · rintro ⟨x, hx | rfl, hp⟩
      · exact Or.inl ⟨x, hx, hp⟩
      · exact Or.inr hp
    · rintro (⟨x, hx, hp⟩ | hp)
      · exact ⟨x, Or.inl hx, hp⟩
      · exact ⟨g, Or.inr rfl, hp⟩
  refine ⟨?_, ?_, ?_, ?_, ?_, h.block⟩
  · intro b hb he
    rw [hex] at he
    by_cases e : b = a
    · subst e; simp [loadWorld]
    · simp only [loadWorld, if_neg e]
      rcases he with he | he
      · exact h.some b hb he
      · exact absurd (hc.address hb ha (he.symm.trans hah)) e
  · intro b hb he
    rw [hex] at he
    have e : b ≠ a := by rintro rfl; exact he (Or.inr hah)
    simp only [loadWorld, if_neg e]
    exact h.none b hb fun h' => he (Or.inl h')
  · intro x hx
    simp only [loadWorld]
    rw [if_neg, h.empty x hx]
    rintro ⟨e1, rfl⟩
    rcases hx with hx | hx
    · rcases hcm with hcm | hcm
      · exact e1 (hc.collisions.1 _ (mem_code hcm) _ mem_nil hx)
      · exact e1 hcm
    · rcases hcm with hcm | hcm
      · exact hc.zero (mem_code hcm) hx
      · exact e1 hcm
  · intro x hx he
    rw [hex] at he
    simp only [loadWorld]
    split
    · next e =>
      obtain ⟨_, rfl⟩ := e
      rw [hck, n3, n4]
    · next e =>
      rcases he with he | he
      · exact h.code x hx he
      · exfalso
        rw [← hck] at he
        by_cases hb : g.account.bytecode = []
        · rw [hb] at he; exact hx (Or.inl he.symm)
        · exact e ⟨hb, he.symm⟩
  · intro x hx he
    rw [hex] at he
    simp only [loadWorld]
    rw [if_neg]
    · exact h.noCode x hx fun h' => he (Or.inl h')
    · rintro ⟨_, rfl⟩
      exact he (Or.inr hck.symm)

theorem load_groups (hl : lib.Sound Holds) (hc : Clear lib s) {w : World} (hk : CodesKnown lib s w)
    (nodes : Nat → List Bytes) (hnodes : ∀ k, ∀ x ∈ nodes k, x ∈ s.nodes) :
    ∀ (gs L : List Group) (n : Nat) (db : Db) (wi : World), Inv lib Holds s db wi → Partly lib s w L wi →
    (∀ g ∈ gs, ∃ a ∈ s.addresses, IsAccount lib s w a g) →
    ∃ db' w', groupsLoop lib nodes n gs db = (db', .ok (n + gs.length)) ∧ Inv lib Holds s db' w' ∧ Partly lib s w (L ++ gs) w'
  | [], L, n, db, wi, h, hp, _ => ⟨db, wi, rfl, h, by rw [List.append_nil]; exact hp⟩
  | g :: gs, L, n, db, wi, h, hp, hg => by
    obtain ⟨a, ha, hga⟩ := hg g List.mem_cons_self
    obtain ⟨db1, h1, h2⟩ := load_group hl hc h hk ha hga
    have h3 : Inv lib Holds s (afterGroup lib nodes n db1) (loadWorld lib w wi a g) := by
      simp only [afterGroup]
      split
      · exact trie_inv hc _ _ _ (hnodes _) h2
      · exact h2
    obtain ⟨db', w', g1, g2, g3⟩ := load_groups hl hc hk nodes hnodes gs (L ++ [g]) (n + 1) _ _ h3 (hp.load hc hk ha hga)
      (fun x hx => hg x (List.mem_cons_of_mem _ hx))
    refine ⟨db', w', ?_, g2, by simpa using g3⟩
    simp only [groupsLoop, h1, g1, List.length_cons]
    rw [Nat.add_assoc, Nat.add_comm 1]

/-- The invariant looks at the database and the account trie, and at the state in scope. -/
theorem Inv.congr {db db' : Db} {w w' : World} (h : Inv lib Holds s db w) (hkv : db'.kv = db.kv) (ht : db'.trie = db.trie)
    (ha : ∀ a ∈ s.addresses, w'.account a = w.account a ∧ w'.storage a = w.storage a)
    (hgone : ∀ a, w'.account a = none → ∀ i, w'.storage a i = 0) (hcode : w'.code = w.code)
    (hb : w'.blockHash = w.blockHash) : Inv lib Holds s db' w' where
  good := by
    intro a haa
    obtain ⟨m, h1, h2, h3, h4⟩ := h.good a haa
    obtain ⟨e1, e2⟩ := ha a haa
    exact ⟨m, by rw [e2]; exact h1, by rw [hkv]; exact h2, by rw [hkv, e1]; exact h3, by rw [ht, e1]; exact h4⟩
  gone := hgone
  only := by rw [ht]; exact h.only
  code := by rw [hkv, hcode]; exact h.code
  block := by rw [hkv, hb]; exact h.block

theorem restored_inv (hc : Clear lib s) {db : Db} {w w' : World} {gs : List Group} (h : Inv lib Holds s db w')
    (hp : Partly lib s w gs w') (hd : Describes lib s w gs) (hgone : ∀ a, w.account a = none → ∀ i, w.storage a i = 0)
    (hout : ∀ a, w.account a ≠ none → a ∈ s.addresses) :
    Inv lib Holds s db (restored lib w fun _ => none) := by
  refine Inv.congr h rfl rfl ?_ hgone ?_ hp.block.symm
  · intro a ha
    by_cases he : ∃ g ∈ gs, g.account.addressHash = lib.K (addressBytes a)
    · obtain ⟨h1, h2⟩ := hp.some a ha he
      exact ⟨h1.symm, h2.symm⟩
    · have h1 := hp.none a ha he
      have h2 : w.account a = none := Classical.byContradiction fun hn => he (hd.2.2 a ha hn)
      refine ⟨by rw [h1]; exact h2, ?_⟩
      funext i
      rw [h.gone a h1]
      exact hgone a h2 i
  · funext x
    by_cases hx : x = lib.K [] ∨ x = 0
    · simp only [restored, if_pos hx]; exact (hp.empty x hx).symm
    · simp only [restored, if_neg hx]
      have hiff : (∃ a i, w.account a = some i ∧ i.codeHash = x) ↔ ∃ g ∈ gs, g.account.state.codeHash = x := by
        constructor
        · rintro ⟨a, i, hi, rfl⟩
          have ha := hout a (by rw [hi]; simp)
          obtain ⟨g, hg, hk⟩ := hd.2.2 a ha (by rw [hi]; simp)
          obtain ⟨b, hb, hgb⟩ := hd.2.1 g hg
          obtain ⟨j, hj, _, _, h3, _⟩ := hgb.2.1
          have hab : b = a := hc.address hb ha (hgb.1.symm.trans hk)
          subst hab
          rw [hi] at hj
          cases hj
          exact ⟨g, hg, h3⟩
        · rintro ⟨g, hg, rfl⟩
          obtain ⟨a, ha, hga⟩ := hd.2.1 g hg
          obtain ⟨j, hj, _, _, h3, _⟩ := hga.2.1
          exact ⟨a, j, hj, h3.symm⟩
      by_cases he : ∃ g ∈ gs, g.account.state.codeHash = x
      · rw [if_pos (hiff.mpr he)]; exact (hp.code x hx he).symm
      · rw [if_neg (fun h' => he (hiff.mp h'))]; exact (hp.noCode x hx he).symm

/-! ## Block hashes -/

theorem hash_put_inv (hc : Clear lib s) {db : Db} {w : World} (h : Inv lib Holds s db w) {n : UInt64}
    (hn : n ∈ s.numbers) (x : Id) :
    Inv lib Holds s { db with kv := db.kv.put (lib.K (numberBytes n)).bytes x.bytes }
      { w with blockHash := fun m => if m = n then some x else w.blockHash m } where
  good := by
    intro a ha
    obtain ⟨m, h1, h2, h3, h4⟩ := h.good a ha
    refine ⟨m, h1, ?_, ?_, h4⟩
    · exact (congrArg (Holds · m) (nodesOf_congr (put_long _ _ _) _)).mpr h2
    · exact Eq.trans (put_other _ _ (bytes_ne (hc.address_number ha hn))) h3
  gone := h.gone
  only := h.only
  code := by
    intro k d hk
    obtain ⟨g1, g2⟩ := h.code k d hk
    refine ⟨Eq.trans (put_other _ _ (bytes_ne ?_)) g1, g2⟩
    rcases g2 with ⟨g2, rfl⟩ | rfl
    · exact (hc.number_code hn g2).symm
    · exact (hc.zero (mem_number hn)).symm
  block := by
    intro m hm
    by_cases e : m = n
    · subst e
      simp only [if_true, Option.map_some]
      exact put_same _ _ _
    · simp only [if_neg e]
      exact Eq.trans (put_other _ _ (bytes_ne fun e' => e (hc.number hm hn e'))) (h.block m hm)

theorem hashLoop_inv (hc : Clear lib s) (block : UInt64 → Option (UInt64 × Id)) (hash : UInt64 → Id) :
    ∀ (k : Nat) (n : UInt64) (db : Db) (w : World), Inv lib Holds s db w → n.toNat + k < 2 ^ 64 →
    (∀ m : UInt64, n.toNat ≤ m.toNat → m.toNat < n.toNat + k → block m = some (m, hash m) ∧ m ∈ s.numbers) →
    ∃ kv, hashLoop lib block k n db.kv = (kv, .ok ()) ∧
      Inv lib Holds s { db with kv }
        { w with blockHash := fun m => if n.toNat ≤ m.toNat ∧ m.toNat < n.toNat + k then some (hash m) else w.blockHash m }
  | 0, n, db, w, h, _, _ => by
    refine ⟨db.kv, rfl, ?_⟩
    refine Inv.congr h rfl rfl (fun _ _ => ⟨rfl, rfl⟩) h.gone rfl ?_
    funext m
    simp only
    rw [if_neg (by omega)]
  | k + 1, n, db, w, h, hlt, hb => by
    obtain ⟨b1, b2⟩ := hb n (Nat.le_refl _) (by omega)
    have hn1 : (n + 1).toNat = n.toNat + 1 := by
      rw [UInt64.toNat_add]
      have : (1 : UInt64).toNat = 1 := rfl
      rw [this, Nat.mod_eq_of_lt (by omega)]
    obtain ⟨kv, g1, g2⟩ := hashLoop_inv hc block hash k (n + 1) _ _ (hash_put_inv hc h b2 (hash n)) (by omega)
      (fun m h1 h2 => hb m (by omega) (by omega))
    refine ⟨kv, ?_, ?_⟩
    · simp only [hashLoop, b1]
      exact g1
    · refine Inv.congr g2 rfl rfl (fun _ _ => ⟨rfl, rfl⟩) g2.gone rfl ?_
      funext m
      simp only [hn1]
      by_cases e : m = n
      · subst e
        rw [if_pos (by omega), if_neg (by omega), if_pos rfl]
      · have : m.toNat ≠ n.toNat := fun e' => e (UInt64.toNat_inj.mp e')
        by_cases h1 : n.toNat ≤ m.toNat ∧ m.toNat < n.toNat + (k + 1)
        · rw [if_pos h1, if_pos (by omega)]
        · rw [if_neg h1, if_neg (by omega), if_neg e]

theorem importHashes_inv (hc : Clear lib s) (block : UInt64 → Option (UInt64 × Id)) (hash : UInt64 → Id) (number : UInt64)
    {db : Db} {w : World} (h : Inv lib Holds s db w) (hw : w.blockHash = fun _ => none) (hlt : number.toNat + 1 < 2 ^ 64)
    (hb : ∀ m : UInt64, m.toNat ≤ number.toNat → number.toNat ≤ m.toNat + 256 →
      block m = some (m, hash m) ∧ m ∈ s.numbers) :
    ∃ kv, importHashes lib block number db.kv = (kv, .ok ()) ∧
      Inv lib Holds s { db with kv } { w with blockHash := lastHashes hash number } := by
  obtain ⟨first, hf, hfirst⟩ : ∃ first : UInt64, first = (if number ≤ 256 then 0 else number - 256) ∧
      first.toNat = number.toNat - 256 := by
    refine ⟨_, rfl, ?_⟩
    have h256 : (256 : UInt64).toNat = 256 := rfl
    split
    · next e =>
      rw [UInt64.le_iff_toNat_le, h256] at e
      have : (0 : UInt64).toNat = 0 := rfl
      omega
    · next e =>
      rw [UInt64.le_iff_toNat_le, h256] at e
      rw [UInt64.toNat_sub_of_le _ _ (by rw [UInt64.le_iff_toNat_le, h256]; omega), h256]
  obtain ⟨kv, g1, g2⟩ := hashLoop_inv hc block hash (number.toNat - first.toNat + 1) first db w h (by omega)
    (fun m h1 h2 => hb m (by omega) (by omega))
  refine ⟨kv, ?_, ?_⟩
  · simp only [importHashes, ← hf]
    exact g1
  · refine Inv.congr g2 rfl rfl (fun _ _ => ⟨rfl, rfl⟩) g2.gone rfl ?_
    funext m
    simp only [hw, lastHashes]
    by_cases h1 : m.toNat ≤ number.toNat ∧ number.toNat ≤ m.toNat + 256
    · rw [if_pos h1, if_pos (by omega)]
    · rw [if_neg h1, if_neg (by omega)]

/-! ## Opening -/

theorem put_self {kv : Kv} {k v : Bytes} (h : kv k = some v) : kv.put k v = kv := by
  funext x
  by_cases e : x = k
  · subst e; rw [put_same, h]
  · rw [put_other _ _ e]

/-- Opening again changes nothing that is read. -/
theorem open_inv {d : Disk} {db : Db} {w : World} (h : Inv lib Holds s db w) (hkv : d.kv = db.kv) (ht : d.trie = db.trie)
    (h1 : w.code (lib.K []) = some []) (h2 : w.code 0 = some []) : Inv lib Holds s (d.open lib) w := by
  have e : (d.open lib).kv = db.kv := by
    show Kv.put (Kv.put d.kv _ _) _ _ = _
    rw [hkv, put_self (h.code _ _ h1).1, put_self (h.code _ _ h2).1]
  exact Inv.congr h e ht (fun _ _ => ⟨rfl, rfl⟩) h.gone rfl rfl

theorem fresh_inv (hl : lib.Sound Holds) (hc : Clear lib s) :
    Inv lib Holds s ((Disk.fresh lib).open lib) (World.initial lib) := initial_inv hl hc false

theorem initial_partly (w : World) : Partly lib s w [] (World.initial lib) where
  some := by rintro a _ ⟨g, hg, _⟩; cases hg
  none := fun _ _ _ => rfl
  empty := fun h hh => by simp only [World.initial, if_pos hh]
  code := by rintro h _ ⟨g, hg, _⟩; cases hg
  noCode := fun h hh _ => by simp only [World.initial, if_neg hh]
  block := rfl

/-! ## The whole import -/

theorem import_inv (hl : lib.Sound Holds) (hc : Clear lib s) {c : Codecs} {w : World} (hk : CodesKnown lib s w)
    (hgone : ∀ a, w.account a = none → ∀ i, w.storage a i = 0) (hout : ∀ a, w.account a ≠ none → a ∈ s.addresses)
    {file : Bytes} {h : Header} {gs : List Group} (hs : Says c file h gs) (hd : Describes lib s w gs)
    {m : Id → Option Bytes} (hm : StateMap lib s w m) (hroot : h.stateRoot = lib.rootOf m)
    (nodes : Nat → List Bytes) (hnodes : ∀ k, ∀ x ∈ nodes k, x ∈ s.nodes) :
    ∃ db, importState c lib nodes file ((Disk.fresh lib).open lib) = (db, .ok h) ∧ db.trie = m ∧
      Inv lib Holds s db (restored lib w fun _ => none) := by
  obtain ⟨db1, w1, g1, g2, g3⟩ := load_groups hl hc hk nodes hnodes gs [] 0 _ _ (fresh_inv hl hc) (initial_partly w)
    hd.2.1
  rw [List.nil_append] at g3
  rw [Nat.zero_add] at g1
  have i1 := restored_inv hc g2 g3 hd hgone hout
  have i2 := trie_inv hc (nodes gs.length) _ _ (hnodes _) i1
  have ht : (commitTrie lib db1 (nodes gs.length)).2.trie = m :=
    stateMap_unique lib s _ _ _ i2.stateMap ⟨hm.1, hm.2⟩
  have ht1 : db1.trie = m := stateMap_unique lib s _ _ _ i1.stateMap ⟨hm.1, hm.2⟩
  refine ⟨_, ?_, ht, i2⟩
  rw [importState_says c lib nodes file h gs hs]
  simp only [g1]
  rw [if_neg (by rw [ht1, hroot]; simp)]

theorem importAll_inv (hl : lib.Sound Holds) (hc : Clear lib s) {c : Codecs} {w : World} (hk : CodesKnown lib s w)
    (hgone : ∀ a, w.account a = none → ∀ i, w.storage a i = 0) (hout : ∀ a, w.account a ≠ none → a ∈ s.addresses)
    {file : Bytes} {h : Header} {gs : List Group} (hs : Says c file h gs) (hd : Describes lib s w gs)
    {m : Id → Option Bytes} (hm : StateMap lib s w m) (hroot : h.stateRoot = lib.rootOf m)
    (nodes : Nat → List Bytes) (hnodes : ∀ k, ∀ x ∈ nodes k, x ∈ s.nodes) (hlt : h.number.toNat + 1 < 2 ^ 64)
    (block : UInt64 → Option (UInt64 × Id)) (hash : UInt64 → Id)
    (hb : ∀ n : UInt64, n.toNat ≤ h.number.toNat → h.number.toNat ≤ n.toNat + 256 →
      block n = some (n, hash n) ∧ n ∈ s.numbers) :
    ∃ d, importAll c lib nodes block file (Disk.fresh lib) = (d, .ok h) ∧ d.next = h.number + 1 ∧ d.root = h.stateRoot ∧
      d.trie = m ∧ Inv lib Holds s (d.open lib) (restored lib w (lastHashes hash h.number)) := by
  obtain ⟨db, h1, h2, h3⟩ := import_inv hl hc hk hgone hout hs hd hm hroot nodes hnodes
  obtain ⟨kv, g1, g2⟩ := importHashes_inv hc block hash h.number h3 rfl hlt hb
  refine ⟨⟨kv, db.trie, h.number + 1, h.stateRoot⟩, ?_, rfl, rfl, h2, ?_⟩
  · have h0 : ¬ (Disk.fresh lib).next ≠ 0 := fun h => h rfl
    rw [importAll, if_neg h0]
    simp only [h1]
    rw [if_neg (by omega)]
    simp only [g1, Res.map, Res.bind]
  · refine open_inv g2 rfl rfl ?_ ?_
    · simp [restored]
    · simp [restored]

end Verif.E2ss
