import Verif.Lemmas.E2ssState
import Verif.Lemmas.QueryFinish

namespace Verif.E2ss
open Verif.E2store hiding Header
open Verif.Archive Verif.EvmDb Verif.Trie Verif.Props.Snapshot

attribute [local irreducible] Id.bytes addressBytes numberBytes maxItems

variable {lib : Lib} {Holds : Nodes → (Id → Option Bytes) → Prop} {s : Scope}

/-! ## Histories -/

/-- Accounts are in scope, and the empty code has its two hashes. -/
structure Tidy (lib : Lib) (s : Scope) (w : World) : Prop where
  out : ∀ a, w.account a ≠ none → a ∈ s.addresses
  empty : w.code (lib.K []) = some []
  zero : w.code 0 = some []

theorem setAccount_tidy {w : World} (h : Tidy lib s w) {a : Address} (ha : a ∈ s.addresses) (i : Option Info) :
    Tidy lib s (w.setAccount a i) where
  out := by
    intro b hb
    by_cases e : b = a
    · exact e ▸ ha
    · simp only [World.setAccount, if_neg e] at hb; exact h.out b hb
  empty := h.empty
  zero := h.zero

theorem wipe_tidy {w : World} (h : Tidy lib s w) (a : Address) : Tidy lib s (w.wipe a) := ⟨h.out, h.empty, h.zero⟩

theorem setSlot_tidy (a : Address) (x : Word × Word) {w : World} (h : Tidy lib s w) : Tidy lib s (World.setSlot a w x) :=
  ⟨h.out, h.empty, h.zero⟩

theorem foldl_tidy {α : Type} {f : World → α → World} : ∀ (l : List α) (w : World), Tidy lib s w →
    (∀ w, ∀ x ∈ l, Tidy lib s w → Tidy lib s (f w x)) → Tidy lib s (l.foldl f w)
  | [], _, h, _ => h
  | x :: l, w, h, hf => foldl_tidy l _ (hf w x List.mem_cons_self h) fun w y hy => hf w y (List.mem_cons_of_mem _ hy)

theorem change_tidy {w : World} (h : Tidy lib s w) (c : Changeset) (hc : c.address ∈ s.addresses) :
    Tidy lib s (w.change lib c) := by
  have h1 : Tidy lib s (if c.wipe then w.wipe c.address else w) := by
    split
    · exact wipe_tidy h _
    · exact h
  simp only [World.change]
  generalize (if c.wipe then w.wipe c.address else w) = w1 at h1 ⊢
  split
  · exact h1
  · refine foldl_tidy _ _ ?_ (fun w x _ => setSlot_tidy _ x)
    split
    · exact setAccount_tidy h1 hc _
    · exact h1

theorem deploy_tidy (hc : Clear lib s) {w : World} (h : Tidy lib s w) (c : Id × Bytes)
    (he : c.1 = lib.K c.2 ∧ c.2 ∈ s.codes) : Tidy lib s (w.deploy c) where
  out := h.out
  empty := by
    simp only [World.deploy]
    split
    · next e =>
      rw [he.1] at e
      rw [hc.collisions.1 _ (mem_code he.2) _ mem_nil e.symm]
    · exact h.empty
  zero := by
    simp only [World.deploy]
    rw [if_neg]
    · exact h.zero
    · intro e
      rw [he.1] at e
      exact hc.zero (mem_code he.2) e.symm

theorem step_tidy (hc : Clear lib s) {w : World} (h : Tidy lib s w) {op : Op} (ho : s.Covers lib op) :
    Tidy lib s (w.step lib op) := by
  cases op with
  | genesis alloc =>
    exact foldl_tidy _ _ h fun w x hx hw => wipe_tidy (setAccount_tidy hw (ho x hx) _) _
  | bundle b =>
    refine foldl_tidy _ _ (foldl_tidy _ _ (foldl_tidy _ _ h ?_) ?_) ?_
    · exact fun w x hx hw => setAccount_tidy hw (ho.1 x hx) _
    · exact fun w x hx hw => deploy_tidy hc hw x (ho.2.1 x hx)
    · exact fun w x hx hw => change_tidy hw x (ho.2.2 x hx).1
  | trie nodes => exact h
  | block n x => exact ⟨h.out, h.empty, h.zero⟩
  | clearCache => exact h

theorem world_tidy (hc : Clear lib s) {ops : List Op} (ho : ∀ op ∈ ops, s.Covers lib op) :
    Tidy lib s (world lib ops) :=
  foldl_tidy ops _ ⟨fun a ha => absurd rfl ha, by simp [World.initial], by simp [World.initial]⟩
    fun _ op hop hw => step_tidy hc hw (ho op hop)

/-! ## Steps look at accounts and storage only -/

/-- Same accounts and storage. -/
def Alike (w w' : World) : Prop := w.account = w'.account ∧ w.storage = w'.storage

theorem foldl_alike {α : Type} {f : World → α → World} (hf : ∀ w w' x, Alike w w' → Alike (f w x) (f w' x)) :
    ∀ (l : List α) (w w' : World), Alike w w' → Alike (l.foldl f w) (l.foldl f w')
  | [], _, _, h => h
  | x :: l, w, w', h => foldl_alike hf l _ _ (hf w w' x h)

theorem setAccount_alike {w w' : World} (h : Alike w w') (a : Address) (i : Option Info) :
    Alike (w.setAccount a i) (w'.setAccount a i) := by
  simp only [Alike, World.setAccount, h.1, h.2, and_self]

theorem wipe_alike {w w' : World} (h : Alike w w') (a : Address) : Alike (w.wipe a) (w'.wipe a) := by
  simp only [Alike, World.wipe, h.1, h.2, and_self]

theorem change_alike {w w' : World} (h : Alike w w') (c : Changeset) : Alike (w.change lib c) (w'.change lib c) := by
  have h1 : Alike (if c.wipe then w.wipe c.address else w) (if c.wipe then w'.wipe c.address else w') := by
    split
    · exact wipe_alike h _
    · exact h
  simp only [World.change]
  generalize (if c.wipe then w.wipe c.address else w) = w1 at h1 ⊢
  generalize (if c.wipe then w'.wipe c.address else w') = w2 at h1 ⊢
  split
  · exact h1
  · refine foldl_alike ?_ _ _ _ ?_
    · intro w w' x h
      simp only [Alike, World.setSlot, h.1, h.2, and_self]
    · rw [h1.1]
      split
      · exact setAccount_alike h1 _ _
      · exact h1

theorem step_alike (w w' : World) (op : Op) (h : Alike w w') : Alike (w.step lib op) (w'.step lib op) := by
  cases op with
  | genesis alloc =>
    exact foldl_alike (f := fun w e => (w.setAccount e.1 (some ⟨0, e.2, lib.K []⟩)).wipe e.1)
      (fun w w' x h => wipe_alike (setAccount_alike h _ _) _) alloc _ _ h
  | bundle b =>
    exact foldl_alike (fun w w' x h => change_alike h x) _ _ _
      (foldl_alike (f := World.deploy) (fun w w' x h => h) _ _ _
        (foldl_alike (f := fun w e => w.setAccount e.1 e.2) (fun w w' x h => setAccount_alike h _ _) b.accounts _ _ h))
  | trie nodes => exact h
  | block n x => exact h
  | clearCache => exact h

/-! ## Export of an account -/

theorem decodeItems_ok (hl : lib.Sound Holds) {st : Word → Word} : ∀ (l : List (Id × Bytes)),
    (∀ e ∈ l, ∃ i ∈ s.slots, e = (lib.K (Id.bytes i), lib.encodeWord (st i)) ∧ st i ≠ 0) →
    ∃ is, decodeItems lib l = .ok is ∧ is.map (·.index) = l.map (·.1) ∧
      ∀ x ∈ is, ∃ i ∈ s.slots, x = ⟨lib.K (Id.bytes i), st i⟩ ∧ st i ≠ 0
  | [], _ => ⟨[], rfl, rfl, by simp⟩
  | e :: l, h => by
    obtain ⟨i, hi, rfl, hz⟩ := h e List.mem_cons_self
    obtain ⟨is, h1, h2, h3⟩ := decodeItems_ok hl l fun x hx => h x (List.mem_cons_of_mem _ hx)
    refine ⟨⟨lib.K (Id.bytes i), st i⟩ :: is, ?_, ?_, ?_⟩
    · simp only [decodeItems, hl.word, h1, Res.map, Res.bind]
    · simp [h2]
    · intro x hx
      rcases List.mem_cons.mp hx with rfl | hx
      · exact ⟨i, hi, rfl, hz⟩
      · exact h3 x hx

theorem pairwise_nodup {l : List Id} (h : l.Pairwise fun x y => x.toNat < y.toNat) : l.Nodup :=
  h.imp fun {a b} hab => fun e => by rw [e] at hab; exact Nat.lt_irrefl _ hab

theorem slots_listed (hl : lib.Sound Holds) (hc : Clear lib s) {it : Iter} (hit : IterSound lib it Holds)
    {nodes : Nodes} {st : Word → Word} {m : Id → Option Bytes} (hm : SlotMap lib s st m) (hh : Holds nodes m) :
    ∃ is, (if lib.rootOf m = lib.emptyRoot then Res.ok ([] : List StorageItem)
        else match it.slots nodes (lib.rootOf m) with | none => .err | some l => decodeItems lib l) = .ok is ∧
      (is.Pairwise fun x y => x.index.toNat < y.index.toNat) ∧
      (∀ x ∈ is, ∃ i ∈ s.slots, x = ⟨lib.K (Id.bytes i), st i⟩ ∧ st i ≠ 0) ∧
      ∀ i ∈ s.slots, st i ≠ 0 → (⟨lib.K (Id.bytes i), st i⟩ : StorageItem) ∈ is := by
  have hroot := root_eq_iff hl hh
  rcases content_cases m with hk | hk
  · have hne : ¬ lib.rootOf m = lib.emptyRoot := hl.otherRoot _ _ hh hk
    rw [if_neg hne]
    obtain ⟨l, h1, h2, h3⟩ := hit.slots nodes m (s.slots.map fun i => lib.K (Id.bytes i)) hh (by
      intro k hk
      obtain ⟨i, hi, rfl⟩ := hm.2 k hk
      exact List.mem_map.mpr ⟨i, hi, rfl⟩) hk
    obtain ⟨is, g1, g2, g3⟩ := decodeItems_ok (s := s) (st := st) hl l (by
      rintro ⟨k, v⟩ he
      have hkv := (h3 k v).mp he
      obtain ⟨i, hi, rfl⟩ := hm.2 k (by rw [hkv]; simp)
      have hmi := hm.1 i hi
      rw [hkv] at hmi
      by_cases hz : st i = 0
      · rw [if_pos hz] at hmi; cases hmi
      · rw [if_neg hz] at hmi; cases hmi; exact ⟨i, hi, rfl, hz⟩)
    refine ⟨is, by simp only [h1, g1], ?_, g3, ?_⟩
    · have : (is.map (·.index)).Pairwise fun x y : Id => x.toNat < y.toNat := by
        rw [g2]; exact List.pairwise_map.mpr h2
      exact (List.pairwise_map (f := fun x : StorageItem => x.index) (R := fun x y : Id => x.toNat < y.toNat)).mp this
    · intro i hi hz
      have hmi := hm.1 i hi
      rw [if_neg hz] at hmi
      have hin : lib.K (Id.bytes i) ∈ is.map (·.index) := by
        rw [g2]; exact List.mem_map.mpr ⟨_, (h3 _ _).mpr hmi, rfl⟩
      obtain ⟨x, hx, hxi⟩ := List.mem_map.mp hin
      obtain ⟨j, hj, rfl, _⟩ := g3 x hx
      have : j = i := hc.slot hj hi hxi
      subst this
      exact hx
  · rw [if_pos (hroot.mpr hk)]
    refine ⟨[], rfl, List.Pairwise.nil, by simp, ?_⟩
    intro i hi hz
    have hmi := hm.1 i hi
    rw [if_neg hz, hk] at hmi
    cases hmi

theorem exportAccount_ok (hl : lib.Sound Holds) (hc : Clear lib s) {it : Iter} (hit : IterSound lib it Holds)
    {db : Db} {w : World} (h : Inv lib Holds s db w) (hk : CodesKnown lib s w) (hslots : s.slots.length < 2 ^ 32)
    {k : Id} {v : Bytes} (hv : db.trie k = some v) :
    ∃ g a, a ∈ s.addresses ∧ IsAccount lib s w a g ∧ g.WellFormed ∧ g.account.addressHash = k ∧
      (g.slots.Pairwise fun x y => x.index.toNat < y.index.toNat) ∧
      (g.account.bytecode ∈ s.codes ∨ g.account.bytecode = []) ∧
      exportAccount lib it db (k, v) = .ok (items [g]) := by
  obtain ⟨a, ha, rfl⟩ := h.only k (by rw [hv]; simp)
  obtain ⟨m, h1, h2, h3, h4⟩ := h.good a ha
  rw [hv] at h4
  cases hi : w.account a with
  | none => rw [hi] at h4; cases h4
  | some i =>
    rw [hi] at h4
    simp only [record, Option.map_some, Option.some.injEq] at h4
    subst h4
    obtain ⟨code, c1, c2, c3⟩ := hk a ha i hi
    obtain ⟨is, g1, g2, g3, g4⟩ := slots_listed hl hc hit h1 h2
    obtain ⟨p1, p2, p3⟩ := chunks_spec is
    have hlen : is.length ≤ s.slots.length := by
      have hn : (is.map (·.index)).Nodup := pairwise_nodup (List.pairwise_map.mpr g2)
      have := Verif.Query.nodup_subset_length hn (b := s.slots.map fun i => lib.K (Id.bytes i)) (by
        intro x hx
        obtain ⟨y, hy, rfl⟩ := List.mem_map.mp hx
        obtain ⟨i, hi, rfl, _⟩ := g3 y hy
        exact List.mem_map.mpr ⟨i, hi, rfl⟩)
      simpa using this
    have hcode : exportCode lib db ⟨i.nonce, i.balance, lib.rootOf m, i.codeHash⟩ = .ok code := by
      simp only [exportCode]
      by_cases e : i.codeHash = lib.K []
      · rw [if_pos e]
        have : code = [] := by
          rw [c3] at e
          rcases c1 with c1 | c1
          · exact hc.collisions.1 _ (mem_code c1) _ mem_nil e
          · exact c1
        rw [this]
      · rw [if_neg e, (h.code _ _ c2).1]
    refine ⟨⟨⟨lib.K (addressBytes a), ⟨i.nonce, i.balance, lib.rootOf m, i.codeHash⟩, code,
      UInt32.ofNat ((is.length + maxItems - 1) / maxItems)⟩, chunks maxItems is⟩, a, ha, ?_, ?_, rfl, ?_, c1, ?_⟩
    · refine ⟨rfl, ⟨i, hi, rfl, rfl, rfl, c2⟩, ⟨m, h1, rfl⟩, ?_, ?_, ?_⟩
      · simp only [Group.slots, p1]
        exact pairwise_nodup (List.pairwise_map.mpr g2)
      · simp only [Group.slots, p1]; exact g3
      · simp only [Group.slots, p1]; exact g4
    · refine ⟨?_, p2⟩
      simp only
      rw [p3, UInt32.toNat_ofNat_of_lt']
      have := Nat.div_le_self (is.length + maxItems - 1) maxItems
      have hm := maxItems_eq
      have : (is.length + maxItems - 1) / maxItems ≤ is.length := by
        rw [hm]; omega
      show _ < 2 ^ 32
      omega
    · simp only [Group.slots, p1]; exact g2
    · have hst : exportStorage lib it db (lib.K (addressBytes a)) ⟨i.nonce, i.balance, lib.rootOf m, i.codeHash⟩ =
          .ok is := by
        rw [← g1]; rfl
      simp only [exportAccount, hl.account, hcode, Res.bind, hst, Res.map, items, List.flatMap_cons,
        List.flatMap_nil, List.append_nil]

/-! ## The whole export -/

theorem exportLoop_ok (hl : lib.Sound Holds) (hc : Clear lib s) {it : Iter} (hit : IterSound lib it Holds)
    {c : Codecs} (hz : Sizes c s) {db : Db} {w : World} (h : Inv lib Holds s db w) (hk : CodesKnown lib s w) :
    ∀ (l : List (Id × Bytes)) (b : Bytes), (∀ e ∈ l, db.trie e.1 = some e.2) →
    ∃ gs, exportLoop c lib it db l ⟨b, 0⟩ = .ok ⟨b ++ fileBytes ((items gs).map (itemRecord c)), 0⟩ ∧
      gs.map (·.account.addressHash) = l.map (·.1) ∧
      ∀ g ∈ gs, g.WellFormed ∧ (g.slots.Pairwise fun x y => x.index.toNat < y.index.toNat) ∧
        ∃ a ∈ s.addresses, IsAccount lib s w a g
  | [], b, _ => ⟨[], by simp [exportLoop, items, fileBytes], rfl, by simp⟩
  | (k, v) :: l, b, he => by
    obtain ⟨g, a, ha, g1, g2, g3, g4, g5, g6⟩ := exportAccount_ok hl hc hit h hk hz.slots (he _ List.mem_cons_self)
    have hshort : Short ((items [g]).map (itemRecord c)) := by
      intro r hr
      obtain ⟨i, hi, rfl⟩ := List.mem_map.mp hr
      simp only [items, List.flatMap_cons, List.flatMap_nil, List.append_nil, List.mem_cons, List.mem_map] at hi
      rcases hi with rfl | ⟨p, hp, rfl⟩
      · exact hz.account _ g5
      · refine hz.storage p ?_
        obtain ⟨n, hn⟩ := List.mem_iff_getElem?.mp hp
        have := g2.2 n p hn
        split at this <;> omega
    have happ := appendAll_items c [g] ⟨b, 0⟩ rfl (by simpa using g2) hshort
    obtain ⟨gs, h1, h2, h3⟩ := exportLoop_ok hl hc hit hz h hk l (b ++ fileBytes ((items [g]).map (itemRecord c))) (fun e h' => he e (List.mem_cons_of_mem _ h'))
    refine ⟨g :: gs, ?_, by simp [h2, g3], ?_⟩
    · simp only [exportLoop, g6, Res.bind, happ, h1]
      have : items (g :: gs) = items [g] ++ items gs := by simp [items]
      rw [this, List.map_append]
      simp [fileBytes]
    · intro x hx
      rcases List.mem_cons.mp hx with rfl | hx
      · exact ⟨g2, g4, a, ha, g1⟩
      · exact h3 x hx

theorem exportState_ok (hl : lib.Sound Holds) (hc : Clear lib s) {it : Iter} (hit : IterSound lib it Holds)
    {c : Codecs} (hz : Sizes c s) {d : Disk} {w : World} (h : Inv lib Holds s (d.open lib) w) (hk : CodesKnown lib s w)
    {header : UInt64 → Option Header} {hd : Header} (hn : d.next ≠ 0) (hh : header (d.next - 1) = some hd)
    (hroot : hd.stateRoot = lib.rootOf d.trie) {taken : List Char → Bool} (ht : taken (fileName hd) = false)
    (hs : (c.header.enc hd).length + 8 < 2 ^ 32) :
    ∃ gs, exportState c lib it header taken d = .ok (fileName hd, fileBytes (records c hd (items gs))) ∧
      Describes lib s w gs ∧ Sorted gs ∧ ∀ g ∈ gs, g.WellFormed := by
  have hlist := hit.accounts (d.open lib).trie (s.addresses.map fun a => lib.K (addressBytes a)) (by
    intro k hk
    obtain ⟨a, ha, rfl⟩ := h.only k hk
    exact List.mem_map.mpr ⟨a, ha, rfl⟩)
  obtain ⟨gs, h1, h2, h3⟩ := exportLoop_ok hl hc hit hz h hk (it.accounts (d.open lib).trie) (fileBytes (records c hd []))
    (fun e he => (hlist.2 e.1 e.2).mp he)
  have hsort : (gs.map (·.account.addressHash)).Pairwise fun x y : Id => x.toNat < y.toNat := by
    rw [h2]; exact List.pairwise_map.mpr hlist.1
  refine ⟨gs, ?_, ⟨pairwise_nodup hsort, fun g hg => (h3 g hg).2.2, ?_⟩, ⟨(List.pairwise_map (f := fun g : Group => g.account.addressHash)
      (R := fun x y : Id => x.toNat < y.toNat)).mp hsort, fun g hg => (h3 g hg).2.1⟩,
    fun g hg => (h3 g hg).1⟩
  · simp only [exportState]
    rw [if_neg hn, hh]
    simp only
    have hr : ¬ lib.rootOf (d.open lib).trie ≠ hd.stateRoot := fun e => e hroot.symm
    rw [if_neg hr]
    simp only [ht, Bool.false_eq_true, if_false, (create_iff c hd ⟨fileBytes (records c hd []), 0⟩).mpr ⟨hs, rfl⟩, Res.bind, h1,
      Res.map]
    rw [← file_records]
  · intro a ha hne
    obtain ⟨m, _, _, _, h4⟩ := h.good a ha
    cases hi : w.account a with
    | none => exact absurd hi hne
    | some i =>
      rw [hi] at h4
      simp only [record, Option.map_some] at h4
      have := (hlist.2 _ _).mpr h4
      have hin : lib.K (addressBytes a) ∈ gs.map (·.account.addressHash) := by
        rw [h2]; exact List.mem_map.mpr ⟨_, this, rfl⟩
      obtain ⟨g, hg, he⟩ := List.mem_map.mp hin
      exact ⟨g, hg, he⟩

end Verif.E2ss
