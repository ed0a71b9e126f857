import Verif.Lemmas.E2ssExport
import Verif.Lemmas.HeadGenNames
import Verif.Props.EvmDb

/-! # C81: state snapshots -/

namespace Verif.Props
open Verif.E2store hiding Header
open Verif.E2ss Verif.EvmDb Verif.Trie Verif.Props.Snapshot

attribute [local irreducible] Id.bytes addressBytes numberBytes maxItems

/-! ## Files -/

/-- A file is called `mainnet-NNNNNNNNNN-hhhhhhhh.e2ss`: the block number with at least ten digits, and the first four bytes
of the state root. -/
theorem C81_name (h : Header) : ∃ digits,
    fileName h = "mainnet-".toList ++ digits ++ "-".toList ++
      ((h.stateRoot.bytes.take 4).flatMap fun x => [Hex.digit (x.toNat / 16), Hex.digit (x.toNat % 16)]) ++ ".e2ss".toList ∧
    (∀ c ∈ digits, '0' ≤ c ∧ c ≤ '9') ∧ HeadSpec.value digits = h.number.toNat ∧ 10 ≤ digits.length ∧
    (10 < digits.length → digits.head? ≠ some '0') := by
  obtain ⟨h1, h2, h3, h4, h5⟩ := decimal_spec h.number.toNat
  rw [← hexBody_flatMap]
  refine ⟨List.replicate (10 - (HeadGen.decimal h.number.toNat).length) '0' ++ HeadGen.decimal h.number.toNat, ?_, ?_, ?_, ?_, ?_⟩
  · show "mainnet-".toList ++ _ ++ '-' :: _ = _
    simp only [List.append_assoc]
    rfl
  · intro c hc
    rw [List.mem_append, List.mem_replicate] at hc
    rcases hc with ⟨_, rfl⟩ | hc
    · decide
    · exact h1 c hc
  · rw [value_zeros, h2]
  · simp; omega
  · intro hlen
    rw [List.length_append, List.length_replicate] at hlen
    have : 10 - (HeadGen.decimal h.number.toNat).length = 0 := by omega
    rw [this]
    exact h4 (by omega)

/-- A complete file is written exactly if its items are accounts, each followed by as many parts of its storage as the account
says, all full except for the last, and if no record is too long. The file then has these records and nothing else. -/
theorem C81_write (c : Codecs) (h : Header) (is : List Item) (w : Writer) :
    (((Writer.create c h).bind fun w => w.appendAll c is) = .ok w ∧ w.pending = 0) ↔
      ∃ gs, is = items gs ∧ (∀ g ∈ gs, g.WellFormed) ∧ Short (records c h is) ∧ w = ⟨fileBytes (records c h is), 0⟩ := by
  constructor
  · rintro ⟨hw, hp⟩
    cases hc : Writer.create c h with
    | err => rw [hc] at hw; cases hw
    | panic => rw [hc] at hw; cases hw
    | ok w0 =>
      rw [hc] at hw
      obtain ⟨g1, rfl⟩ := (create_iff c h w0).mp hc
      obtain ⟨ps, gs, h1, _, h3, h4, h5, h6⟩ := appendAll_sound c is _ w hw hp
      have : ps = [] := List.length_eq_zero_iff.mp h1
      subst this
      refine ⟨gs, by simpa using h4, h3, ?_, ?_⟩
      · intro r hr
        simp only [records, List.mem_cons] at hr
        rcases hr with rfl | rfl | hr
        · decide
        · exact g1
        · exact h5 r hr
      · obtain ⟨b, p⟩ := w
        simp only at hp h6
        subst hp
        rw [h6, ← file_records]
  · rintro ⟨gs, rfl, h2, h3, rfl⟩
    have g1 : (c.header.enc h).length + 8 < 2 ^ 32 := h3 (0x0300, c.header.enc h) (by simp [records])
    rw [(create_iff c h ⟨fileBytes (records c h []), 0⟩).mpr ⟨g1, rfl⟩]
    refine ⟨?_, rfl⟩
    simp only [Res.bind]
    rw [appendAll_items c gs _ rfl h2 (fun r hr => h3 r (by simp only [records, List.mem_cons]; exact Or.inr (Or.inr hr))), ← file_records]

theorem says_records {c : Codecs} (hc : Lawful c) {h : Header} {gs : List Group}
    (hw : ∀ g ∈ gs, g.account.storageCount.toNat = g.parts.length) (hs : Short (records c h (items gs))) {cut : Bytes}
    (hcut : Cut cut) : Says c (fileBytes (records c h (items gs)) ++ cut) h gs := by
  refine ⟨c.header.enc h, fileBytes ((items gs).map (itemRecord c)) ++ cut, ?_, hc.header h, ?_, ?_⟩
  · have := hs (0x0300, c.header.enc h) (by simp [records])
    simp only at this
    omega
  · have hs' : Short ((items gs).map (itemRecord c)) := fun r hr => hs r (by simp only [records, List.mem_cons]; exact Or.inr (Or.inr hr))
    clear hs
    induction gs with
    | nil => exact .done (by simpa [items, fileBytes] using hcut)
    | cons g gs ih =>
      obtain ⟨a, ps⟩ := g
      have e : items (⟨a, ps⟩ :: gs) = .account a :: (ps.map .storage ++ items gs) := by simp [items]
      rw [e] at hs' ⊢
      rw [List.map_cons, List.map_append] at hs'
      have hrest := ih (fun g hg => hw g (List.mem_cons_of_mem _ hg))
        (fun r hr => hs' r (List.mem_cons_of_mem _ (List.mem_append_right _ hr)))
      have hcount : a.storageCount.toNat = ps.length := hw _ List.mem_cons_self
      have ha := hs' (itemRecord c (.account a)) List.mem_cons_self
      have hps : Parts c ps.length (fileBytes ((ps.map Item.storage ++ items gs).map (itemRecord c)) ++ cut) ps
          (fileBytes ((items gs).map (itemRecord c)) ++ cut) := by
        have hs2 : ∀ p ∈ ps, (c.storage.enc p).length + 8 < 2 ^ 32 := fun p hp =>
          hs' (itemRecord c (.storage p)) (List.mem_cons_of_mem _ (List.mem_append_left _
            (List.mem_map_of_mem (List.mem_map_of_mem hp))))
        clear hw hcount e hs' ih hrest ha
        induction ps with
        | nil => exact .done _
        | cons p ps ih =>
          have h1 := hs2 p List.mem_cons_self
          have := ih (fun q hq => hs2 q (List.mem_cons_of_mem _ hq))
          have e2 : fileBytes (((p :: ps).map Item.storage ++ items gs).map (itemRecord c)) ++ cut =
              recordBytes (0x0900, c.storage.enc p) ++
                (fileBytes ((ps.map Item.storage ++ items gs).map (itemRecord c)) ++ cut) := by
            simp [fileBytes, itemRecord]
          rw [e2]
          exact .more (by omega) (hc.storage p) this
      have e3 : fileBytes ((Item.account a :: (ps.map Item.storage ++ items gs)).map (itemRecord c)) ++ cut =
          recordBytes (0x0800, c.account.enc a) ++
            (fileBytes ((ps.map Item.storage ++ items gs).map (itemRecord c)) ++ cut) := by
        simp [fileBytes, itemRecord]
      rw [e3]
      simp only [itemRecord] at ha
      exact .more (by omega) (hc.account a) (hcount ▸ hps) hrest
  · simp [fileBytes, records]

theorem says_file {c : Codecs} (hc : Lawful c) {h : Header} {gs : List Group} (hw : ∀ g ∈ gs, g.WellFormed)
    (hs : Short (records c h (items gs))) : Says c (fileBytes (records c h (items gs))) h gs := by
  have := says_records hc (fun g hg => (hw g hg).1) hs (cut := []) (Or.inl (by simp))
  rwa [List.append_nil] at this

/-- What was written is read back.
Missing: that only such files are read, see `C81_truncated_violated`. -/
theorem C81_read_partial (c : Codecs) (hc : Lawful c) (h : Header) (gs : List Group) (hw : ∀ g ∈ gs, g.WellFormed)
    (hs : Short (records c h (items gs))) :
    readFile c (fileBytes (records c h (items gs))) = .ok (h, items gs) :=
  (readFile_iff c _ h _).mpr ⟨gs, says_file hc hw hs, rfl⟩

/-- Reading gives a result exactly for files that say it: version, header, accounts with as many storage records as they say,
until no complete record follows. Without version or header it is an error, anything else aborts the process. -/
theorem C81_read_only (c : Codecs) (file : Bytes) :
    (∀ h is, readFile c file = .ok (h, is) ↔ ∃ gs, Says c file h gs ∧ is = items gs) ∧
    (readFile c file = .err ↔ ¬ ∃ raw rest h, raw.length < 2 ^ 32 ∧ c.header.dec raw = some h ∧
      file = recordBytes (0x6532, []) ++ (recordBytes (0x0300, raw) ++ rest)) ∧
    (readFile c file = .panic ↔ (∃ raw rest h, raw.length < 2 ^ 32 ∧ c.header.dec raw = some h ∧
      file = recordBytes (0x6532, []) ++ (recordBytes (0x0300, raw) ++ rest)) ∧ ¬ ∃ h gs, Says c file h gs) := by
  have hitems : ∀ (n : Nat) (r : Reader), Reader.items c n r ≠ .err := by
    intro n
    induction n with
    | zero => intro r h; cases h
    | succ n ih =>
      intro r h
      simp only [Reader.items] at h
      cases hx : r.next c with
      | err => exact next_no_err c r hx
      | panic => simp [hx, Res.bind] at h
      | ok x =>
        obtain ⟨i, r'⟩ := x
        cases i with
        | none => simp [hx, Res.bind] at h
        | some i =>
          simp only [hx, Res.bind, Res.map] at h
          cases h2 : Reader.items c n r' with
          | err => exact ih r' h2
          | ok y => simp [h2] at h
          | panic => simp [h2] at h
  have hopen : (∃ x, Reader.open c file = .ok x) ↔ ∃ raw rest h, raw.length < 2 ^ 32 ∧ c.header.dec raw = some h ∧
      file = recordBytes (0x6532, []) ++ (recordBytes (0x0300, raw) ++ rest) := by
    constructor
    · rintro ⟨⟨h, rem, p⟩, hx⟩
      obtain ⟨hp, raw, h1, h2, h3⟩ := (open_iff c file h _).mp hx
      exact ⟨raw, rem, h, h1, h2, h3⟩
    · rintro ⟨raw, rest, h, h1, h2, h3⟩
      exact ⟨_, (open_iff c file h ⟨rest, 0⟩).mpr ⟨rfl, raw, h1, h2, h3⟩⟩
  refine ⟨fun h is => readFile_iff c file h is, ?_, ?_⟩
  · rw [← hopen]
    simp only [readFile]
    cases ho : Reader.open c file with
    | err => simp [Res.bind]
    | panic => exact absurd ho (open_no_panic c file)
    | ok x =>
      simp only [Res.bind, Res.map]
      constructor
      · intro hx
        cases h2 : Reader.items c (x.2.rem.length + 1) x.2 with
        | err => exact absurd h2 (hitems _ _)
        | ok y => simp [h2] at hx
        | panic => simp [h2] at hx
      · intro hx
        exact absurd ⟨x, rfl⟩ hx
  · rw [← hopen]
    have key : (∃ h gs, Says c file h gs) ↔ ∃ y, readFile c file = .ok y := by
      constructor
      · rintro ⟨h, gs, hs⟩
        exact ⟨_, (readFile_iff c file h _).mpr ⟨gs, hs, rfl⟩⟩
      · rintro ⟨⟨h, is⟩, hy⟩
        obtain ⟨gs, hs, _⟩ := (readFile_iff c file h is).mp hy
        exact ⟨h, gs, hs⟩
    rw [key]
    constructor
    · intro hx
      constructor
      · cases ho : Reader.open c file with
        | err => rw [readFile, ho] at hx; cases hx
        | panic => exact absurd ho (open_no_panic c file)
        | ok x => exact ⟨x, rfl⟩
      · rintro ⟨y, hy⟩
        rw [hx] at hy
        cases hy
    · rintro ⟨⟨x, ho⟩, hx⟩
      cases hr : readFile c file with
      | ok y => exact absurd ⟨y, hr⟩ hx
      | panic => rfl
      | err =>
        simp only [readFile, ho, Res.bind, Res.map] at hr
        cases h2 : Reader.items c (x.2.rem.length + 1) x.2 with
        | err => exact absurd h2 (hitems _ _)
        | ok y => simp [h2] at hr
        | panic => simp [h2] at hr

/-- A file that ends inside the record of an account is not detected: it reads as the accounts before. -/
theorem C81_truncated_violated (c : Codecs) (hc : Lawful c) (h : Header) (gs : List Group) (hw : ∀ g ∈ gs, g.WellFormed)
    (hs : Short (records c h (items gs))) (a : AccountEntry) (ha : (c.account.enc a).length < 2 ^ 32) (cut more : Bytes)
    (hm : more ≠ []) (hcut : cut ++ more = recordBytes (0x0800, c.account.enc a)) :
    readFile c (fileBytes (records c h (items gs)) ++ cut) = .ok (h, items gs) := by
  exact (readFile_iff c _ h _).mpr ⟨gs, says_records hc (fun g hg => (hw g hg).1) hs (Or.inr ⟨_, _, more, ha, hm, hcut⟩), rfl⟩

/-! ## Import of arbitrary files -/

/-- What an import into a new data directory accepts: files whose storage, code and accounts hash to what accounts and header
say. Nothing relates the header to the chain. -/
theorem C81_import_accepts (lib : Lib) (Holds : Nodes → (Id → Option Bytes) → Prop) (hl : lib.Sound Holds) (c : Codecs)
    (nodes : Nat → List Bytes) (file : Bytes) (h : Header) :
    ((importState c lib nodes file ((Disk.fresh lib).open lib)).2 = .ok h ↔
      ∃ gs, Says c file h gs ∧ Consistent lib h gs) ∧
    ∀ gs, Says c file h gs → (importState c lib nodes file ((Disk.fresh lib).open lib)).2 = .ok h →
      (importState c lib nodes file ((Disk.fresh lib).open lib)).1.trie = accountContent lib gs :=
  ⟨importState_iff hl c nodes file _ rfl h, fun gs hs hi => importState_trie hl c nodes file _ rfl h gs hs hi⟩

/-- An import is refused, and changes nothing, where blocks were executed or a state was imported before. -/
theorem C81_import_once (lib : Lib) (c : Codecs) (nodes : Nat → List Bytes) (block : UInt64 → Option (UInt64 × Id))
    (file : Bytes) (d : Disk) (h : d.next ≠ 0) : importAll c lib nodes block file d = (d, .err) := if_pos h

/-- The position moves only with a state that has the root of the header. -/
theorem C81_import_position (lib : Lib) (Holds : Nodes → (Id → Option Bytes) → Prop) (hl : lib.Sound Holds) (c : Codecs)
    (nodes : Nat → List Bytes) (block : UInt64 → Option (UInt64 × Id)) (file : Bytes) (d' : Disk) (r : Res Header)
    (h : importAll c lib nodes block file (Disk.fresh lib) = (d', r)) :
    (d'.next = 0 ∧ d'.trie = (fun _ => none) ∧ ∀ h, r ≠ .ok h) ∨
    ∃ hd gs, Says c file hd gs ∧ Consistent lib hd gs ∧ d'.next = hd.number + 1 ∧ d'.next ≠ 0 ∧ d'.root = hd.stateRoot ∧
      lib.rootOf d'.trie = hd.stateRoot ∧ (r = .ok hd ∨ r = .err) := by
  have h0 : ¬ (Disk.fresh lib).next ≠ 0 := fun h => h rfl
  rw [importAll, if_neg h0] at h
  cases hi : importState c lib nodes file ((Disk.fresh lib).open lib) with
  | mk db x =>
    rw [hi] at h
    cases x with
    | err => cases h; exact Or.inl ⟨rfl, rfl, by simp⟩
    | panic => cases h; exact Or.inl ⟨rfl, rfl, by simp⟩
    | ok hd =>
      simp only at h
      obtain ⟨gs, g1, g2⟩ := (importState_iff hl c nodes file _ rfl hd).mp (congrArg Prod.snd hi)
      have g3 := importState_trie hl c nodes file _ rfl hd gs g1 (congrArg Prod.snd hi)
      rw [hi] at g3
      split at h
      · cases h; exact Or.inl ⟨rfl, rfl, by simp⟩
      · next hlt =>
        refine Or.inr ⟨hd, gs, g1, g2, ?_⟩
        have hne : hd.number + 1 ≠ 0 := by
          intro e
          have := congrArg UInt64.toNat e
          rw [UInt64.toNat_add] at this
          have h1 : (1 : UInt64).toNat = 1 := rfl
          have h2 : (0 : UInt64).toNat = 0 := rfl
          rw [h1, h2] at this
          have := hd.number.toNat_lt
          omega
        cases hh : importHashes lib block hd.number db.kv with
        | mk kv x =>
          rw [hh] at h
          have hx : x ≠ .panic := by
            have : ∀ (k : Nat) (n : UInt64) (kv : Kv), (hashLoop lib block k n kv).2 ≠ .panic := by
              intro k
              induction k with
              | zero => intro n kv; simp [hashLoop]
              | succ k ih =>
                intro n kv
                simp only [hashLoop]
                split
                · simp
                · exact ih _ _
            have h2 := this (hd.number.toNat - (if hd.number ≤ 256 then 0 else hd.number - 256 : UInt64).toNat + 1)
              (if hd.number ≤ 256 then 0 else hd.number - 256) db.kv
            intro e
            apply h2
            have := congrArg Prod.snd hh
            rw [e] at this
            exact this
          simp only [Prod.mk.injEq] at h
          obtain ⟨rfl, rfl⟩ := h
          refine ⟨rfl, hne, rfl, ?_, ?_⟩
          · exact (congrArg lib.rootOf g3).trans g2.2
          · cases x with
            | ok u => exact Or.inl rfl
            | err => exact Or.inr rfl
            | panic => exact absurd rfl hx

/-! ## Export, import, resume -/

/-- An export succeeds only after a block was executed, with the header of the last executed block, if its state root is that
of the state, and only under a name that is not taken: no file is overwritten. -/
theorem C81_export_only (lib : Lib) (c : Codecs) (it : Iter) (header : UInt64 → Option Header) (taken : List Char → Bool)
    (d : Disk) (name : List Char) (file : Bytes) (h : exportState c lib it header taken d = .ok (name, file)) :
    taken name = false ∧ d.next ≠ 0 ∧
      ∃ hd, header (d.next - 1) = some hd ∧ name = fileName hd ∧ hd.stateRoot = lib.rootOf (d.open lib).trie := by
  unfold exportState at h
  split at h
  · cases h
  · rename_i hn
    split at h
    · cases h
    · rename_i hd hh
      simp only at h
      split at h
      · cases h
      · rename_i hr
        split at h
        · cases h
        · rename_i ht
          cases hw : Writer.create c hd with
          | err => rw [hw] at h; cases h
          | panic => rw [hw] at h; cases h
          | ok w =>
            rw [hw] at h
            have h' : (exportLoop c lib it (d.open lib) (it.accounts (d.open lib).trie) w).map
                (fun w => (fileName hd, w.written)) = .ok (name, file) := h
            cases hl : exportLoop c lib it (d.open lib) (it.accounts (d.open lib).trie) w with
            | err => rw [hl] at h'; cases h'
            | panic => rw [hl] at h'; cases h'
            | ok w' =>
              rw [hl] at h'
              have he : (fileName hd, w'.written) = (name, file) := by
                have : Res.ok (fileName hd, w'.written) = Res.ok (name, file) := h'
                injection this
              injection he with e1 _
              subst e1
              exact ⟨by simpa using ht, hn, hd, hh, rfl, (Classical.not_not.mp hr).symm⟩

/-- After a history, what is exported is the state: each account once with its code and its slots that are not zero, all in
the order of the hashes, in a file that can be written. -/
theorem C81_export (lib : Lib) (Holds : Nodes → (Id → Option Bytes) → Prop) (hl : lib.Sound Holds) (s : Scope)
    (hcol : s.NoCollision lib) (hnodes : s.LargeNodes) (hcodes : s.CodesApart) (c : Codecs) (hz : Sizes c s)
    (it : Iter) (hit : IterSound lib it Holds) (cache : Bool) (ops : List Op) (hops : ∀ op ∈ ops, s.Covers lib op)
    (hk : CodesKnown lib s (world lib ops)) (db : Db) (hdb : run lib cache ops = some db) (hd : Header)
    (m : Id → Option Bytes) (hm : StateMap lib s (world lib ops) m) (hroot : hd.stateRoot = lib.rootOf m)
    (next : UInt64) (hn : next ≠ 0) (root : Id) (header : UInt64 → Option Header) (hh : header (next - 1) = some hd)
    (hs : (c.header.enc hd).length + 8 < 2 ^ 32) (taken : List Char → Bool) (ht : taken (fileName hd) = false) :
    ∃ gs, exportState c lib it header taken ⟨db.kv, db.trie, next, root⟩ =
        .ok (fileName hd, fileBytes (records c hd (items gs))) ∧
      Describes lib s (world lib ops) gs ∧ Sorted gs ∧ (∀ g ∈ gs, g.WellFormed) ∧ Consistent lib hd gs := by
  have hc : Clear lib s := ⟨hcol, hnodes, hcodes⟩
  obtain ⟨db', h1, h2⟩ := run_inv hl hc cache hops
  rw [hdb] at h1
  cases h1
  have ht' := world_tidy hc hops
  have ho : Inv lib Holds s (Disk.open lib ⟨db.kv, db.trie, next, root⟩) (world lib ops) :=
    open_inv h2 rfl rfl ht'.empty ht'.zero
  have htrie : db.trie = m := stateMap_unique lib s _ _ _ h2.stateMap hm
  obtain ⟨gs, g1, g2, g3, g4⟩ := exportState_ok hl hc hit hz ho hk (header := header) hn hh
    (by rw [hroot, ← htrie]) ht hs
  refine ⟨gs, g1, g2, g3, g4, fun g hg => ?_, ?_⟩
  · obtain ⟨a, ha, hga⟩ := g2.2.1 g hg
    exact ⟨(group_root hc hga).symm, (group_code ha hga hk).2⟩
  · rw [hroot]
    congr 1
    refine stateMap_unique lib s (world lib ops) _ _ ⟨?_, ?_⟩ hm
    · intro a ha
      obtain ⟨mm, q1, q2, q3, q4⟩ := h2.good a ha
      refine ⟨mm, q1, ?_⟩
      cases hf : gs.reverse.find? fun g => g.account.addressHash = lib.K (addressBytes a) with
      | none =>
        simp only [accountContent, hf, Option.map_none]
        have : (world lib ops).account a = none := by
          apply Classical.byContradiction
          intro hne
          obtain ⟨g, hg, he⟩ := g2.2.2 a ha hne
          have := List.find?_eq_none.mp hf g (List.mem_reverse.mpr hg)
          simp [he] at this
        rw [this]
        rfl
      | some g =>
        have hg := List.mem_reverse.mp (List.mem_of_find?_eq_some hf)
        have he : g.account.addressHash = lib.K (addressBytes a) := by simpa using List.find?_some hf
        obtain ⟨b, hb, hgb⟩ := g2.2.1 g hg
        have hba : b = a := hc.address hb ha (hgb.1.symm.trans he)
        subst hba
        obtain ⟨i, hi, n1, n2, n3, _⟩ := hgb.2.1
        have hst : g.account.state = ⟨i.nonce, i.balance, lib.rootOf mm, i.codeHash⟩ := by
          rw [← n1, ← n2, ← n3, slotMap_unique q1 (slotContent_map hc hgb), ← group_root hc hgb]
        simp only [accountContent, hf, Option.map_some, hst, hi]
    · intro k hk'
      cases hf : gs.reverse.find? fun g => g.account.addressHash = k with
      | none => simp [accountContent, hf] at hk'
      | some g =>
        have hg := List.mem_reverse.mp (List.mem_of_find?_eq_some hf)
        have he : g.account.addressHash = k := by simpa using List.find?_some hf
        obtain ⟨b, hb, hgb⟩ := g2.2.1 g hg
        exact ⟨b, hb, he.symm.trans hgb.1⟩

/-- The state of a history, exported and imported into a new data directory, is the same for every read: accounts, storage,
the code of every account; position and state root are those of the header, and the hashes of the last blocks are there.
Execution goes on from there as if the history had been executed: after any further history, accounts, storage, state root
and code (of accounts at the snapshot, or deployed since) are those of both histories together. -/
theorem C81_roundtrip (lib : Lib) (Holds : Nodes → (Id → Option Bytes) → Prop) (hl : lib.Sound Holds) (s : Scope)
    (hcol : s.NoCollision lib) (hnodes : s.LargeNodes) (hcodes : s.CodesApart) (c : Codecs) (hlaw : Lawful c)
    (hz : Sizes c s) (it : Iter) (hit : IterSound lib it Holds) (cache : Bool) (ops : List Op)
    (hops : ∀ op ∈ ops, s.Covers lib op) (hk : CodesKnown lib s (world lib ops)) (db : Db)
    (hdb : run lib cache ops = some db) (hd : Header) (hlt : hd.number.toNat + 1 < 2 ^ 64)
    (m : Id → Option Bytes) (hm : StateMap lib s (world lib ops) m) (hroot : hd.stateRoot = lib.rootOf m)
    (root : Id) (header : UInt64 → Option Header) (hh : header hd.number = some hd)
    (hs : (c.header.enc hd).length + 8 < 2 ^ 32) (taken : List Char → Bool) (ht : taken (fileName hd) = false)
    (nodes : Nat → List Bytes) (hnodes' : ∀ k, ∀ x ∈ nodes k, x ∈ s.nodes)
    (block : UInt64 → Option (UInt64 × Id)) (hash : UInt64 → Id)
    (hb : ∀ n : UInt64, n.toNat ≤ hd.number.toNat → hd.number.toNat ≤ n.toNat + 256 →
      block n = some (n, hash n) ∧ n ∈ s.numbers) :
    ∃ file d, exportState c lib it header taken ⟨db.kv, db.trie, hd.number + 1, root⟩ = .ok (fileName hd, file) ∧
      importAll c lib nodes block file (Disk.fresh lib) = (d, .ok hd) ∧
      d.next = hd.number + 1 ∧ d.root = hd.stateRoot ∧ d.trie = m ∧
      (∀ a ∈ s.addresses, basic lib (d.open lib) a = some ((world lib ops).account a)) ∧
      (∀ a ∈ s.addresses, (world lib ops).account a ≠ none → ∀ i ∈ s.slots,
        storage lib (d.open lib) a i = some ((world lib ops).storage a i)) ∧
      (∀ a i, (world lib ops).account a = some i → codeByHash (d.open lib) i.codeHash = (world lib ops).code i.codeHash) ∧
      (∀ n ∈ s.numbers, blockHash lib (d.open lib) n =
        if n.toNat ≤ hd.number.toNat ∧ hd.number.toNat ≤ n.toNat + 256 then some (hash n) else none) ∧
      ∀ ops', (∀ op ∈ ops', s.Covers lib op) → ∃ db', ops'.foldlM (step lib) (d.open lib) = some db' ∧
        (∀ a ∈ s.addresses, basic lib db' a = some ((world lib (ops ++ ops')).account a)) ∧
        (∀ a ∈ s.addresses, (world lib (ops ++ ops')).account a ≠ none → ∀ i ∈ s.slots,
          storage lib db' a i = some ((world lib (ops ++ ops')).storage a i)) ∧
        (∀ h code, (ops'.foldl (World.step lib) (restored lib (world lib ops) (lastHashes hash hd.number))).code h =
          some code → codeByHash db' h = some code) ∧
        (∀ n ∈ s.numbers, blockHash lib db' n =
          (ops'.foldl (World.step lib) (restored lib (world lib ops) (lastHashes hash hd.number))).blockHash n) ∧
        StateMap lib s (world lib (ops ++ ops')) db'.trie := by
  have hc : Clear lib s := ⟨hcol, hnodes, hcodes⟩
  have htidy := world_tidy hc hops
  have hnext : hd.number + 1 ≠ 0 := by
    intro e
    have := congrArg UInt64.toNat e
    rw [UInt64.toNat_add] at this
    have h1 : (1 : UInt64).toNat = 1 := rfl
    have h2 : (0 : UInt64).toNat = 0 := rfl
    rw [h1, h2] at this
    omega
  have hsub : hd.number + 1 - 1 = hd.number := by simp
  obtain ⟨gs, g1, g2, g3, g4, g5⟩ := C81_export lib Holds hl s hcol hnodes hcodes c hz it hit cache ops hops hk db hdb hd m hm
    hroot (hd.number + 1) hnext root header (by rw [hsub]; exact hh) hs taken ht
  have hshort : Short (records c hd (items gs)) := by
    intro r hr
    simp only [records, List.mem_cons, List.mem_map] at hr
    rcases hr with rfl | rfl | ⟨i, hi, rfl⟩
    · decide
    · exact hs
    · simp only [items, List.mem_flatMap, List.mem_cons, List.mem_map] at hi
      obtain ⟨g, hg, hi⟩ := hi
      rcases hi with rfl | ⟨p, hp, rfl⟩
      · obtain ⟨a, ha, hga⟩ := g2.2.1 g hg
        exact hz.account _ (group_code ha hga hk).1
      · refine hz.storage p ?_
        obtain ⟨n, hn⟩ := List.mem_iff_getElem?.mp hp
        have := (g4 g hg).2 n p hn
        split at this <;> omega
  obtain ⟨db0, h1, h2⟩ := run_inv hl hc cache hops
  obtain ⟨d, i1, i2, i3, i4, i5⟩ := importAll_inv hl hc hk h2.gone htidy.out (says_file hlaw g4 hshort) g2 hm hroot nodes
    hnodes' hlt block hash hb
  refine ⟨_, d, g1, i1, i2, i3, i4, fun a ha => i5.basic hl ha, fun a ha hne i hi => ?_, fun a i hi => ?_,
    fun n hn => i5.blockHash hn, fun ops' hops' => ?_⟩
  · have hne' : ¬ (restored lib (world lib ops) (lastHashes hash hd.number)).account a = none := hne
    rw [i5.storage hl ha hi, if_neg hne']
    rfl
  · have ha := htidy.out a (by rw [hi]; simp)
    obtain ⟨code, c1, c2, c3⟩ := hk a ha i hi
    rw [c2]
    refine (i5.code _ _ ?_).1
    simp only [restored]
    split
    · next e =>
      rcases e with e | e
      · rw [c3] at e
        rcases c1 with c1 | c1
        · rw [hc.collisions.1 _ (mem_code c1) _ mem_nil e]
        · rw [c1]
      · rw [c3] at e
        rcases c1 with c1 | c1
        · exact absurd e (hc.zero (mem_code c1))
        · exact absurd (c1 ▸ e) (hc.zero mem_nil)
    · rw [if_pos ⟨a, i, hi, rfl⟩]
      exact c2
  · obtain ⟨db', q1, q2⟩ := foldlM_inv (P := fun op => s.Covers lib op) (f := step lib) (g := World.step lib)
      (fun _ _ _ hop h => step_inv hl hc h hop) ops' _ _ hops' i5
    have halike : Alike (ops'.foldl (World.step lib) (restored lib (world lib ops) (lastHashes hash hd.number)))
        (world lib (ops ++ ops')) := by
      have e : world lib (ops ++ ops') = ops'.foldl (World.step lib) (world lib ops) := List.foldl_append
      rw [e]
      exact foldl_alike step_alike ops' _ _ ⟨rfl, rfl⟩
    refine ⟨db', q1, fun a ha => ?_, fun a ha hne i hi => ?_, fun h code hh => (q2.code h code hh).1,
      fun n hn => q2.blockHash hn, ?_⟩
    · rw [q2.basic hl ha, halike.1]
    · rw [q2.storage hl ha hi, halike.1, if_neg hne, halike.2]
    · have := q2.stateMap
      exact ⟨fun a ha => by rw [← halike.1, ← halike.2]; exact this.1 a ha, this.2⟩

/-! ## What goes wrong -/

/-- The position is written before the block hashes are downloaded. If that fails, the import is over: there are no hashes, and
another import is refused. -/
theorem C81_hashes_violated (lib : Lib) (Holds : Nodes → (Id → Option Bytes) → Prop) (hl : lib.Sound Holds) (s : Scope)
    (hcol : s.NoCollision lib) (hnodes : s.LargeNodes) (hcodes : s.CodesApart) (c : Codecs) (ops : List Op)
    (hops : ∀ op ∈ ops, s.Covers lib op) (hk : CodesKnown lib s (world lib ops)) (hd : Header)
    (hlt : hd.number.toNat + 1 < 2 ^ 64) (m : Id → Option Bytes) (hm : StateMap lib s (world lib ops) m)
    (hroot : hd.stateRoot = lib.rootOf m) (nodes : Nat → List Bytes) (hnodes' : ∀ k, ∀ x ∈ nodes k, x ∈ s.nodes)
    (file : Bytes) (gs : List Group) (hs : Says c file hd gs) (hdesc : Describes lib s (world lib ops) gs) :
    ∃ d, importAll c lib nodes (fun _ => none) file (Disk.fresh lib) = (d, .err) ∧ d.next = hd.number + 1 ∧
      (∀ n ∈ s.numbers, blockHash lib (d.open lib) n = none) ∧
      ∀ nodes' block file', importAll c lib nodes' block file' d = (d, .err) := by
  have hc : Clear lib s := ⟨hcol, hnodes, hcodes⟩
  have htidy := world_tidy hc hops
  obtain ⟨db0, h1, h2⟩ := run_inv hl hc true hops
  obtain ⟨db, i1, i2, i3⟩ := import_inv hl hc hk h2.gone htidy.out hs hdesc hm hroot nodes hnodes'
  have hh : importHashes lib (fun _ => none) hd.number db.kv = (db.kv, .err) := rfl
  have h0 : ¬ (Disk.fresh lib).next ≠ 0 := fun h => h rfl
  have hnext : hd.number + 1 ≠ 0 := by
    intro e
    have := congrArg UInt64.toNat e
    rw [UInt64.toNat_add] at this
    have h1 : (1 : UInt64).toNat = 1 := rfl
    have h2 : (0 : UInt64).toNat = 0 := rfl
    rw [h1, h2] at this
    omega
  refine ⟨⟨db.kv, db.trie, hd.number + 1, hd.stateRoot⟩, ?_, rfl, fun n hn => ?_, fun nodes' block file' => ?_⟩
  · rw [importAll, if_neg h0]
    simp only [i1]
    rw [if_neg (by omega)]
    simp only [hh, Res.map, Res.bind]
  · have : Inv lib Holds s (Disk.open lib ⟨db.kv, db.trie, hd.number + 1, hd.stateRoot⟩)
        (restored lib (world lib ops) fun _ => none) := open_inv i3 rfl rfl (by simp [restored]) (by simp [restored])
    exact this.blockHash hn
  · exact C81_import_once lib c nodes' block file' _ hnext

theorem commitTrie_other (lib : Lib) (k : Id) : ∀ (l : List Bytes) (db : Db), (∀ x ∈ l, lib.K x ≠ k) →
    (commitTrie lib db l).2.kv k.bytes = db.kv k.bytes
  | [], _, _ => rfl
  | x :: l, db, h => by
    have := commitTrie_other lib k l { db with kv := db.kv.put (lib.K x).bytes x } fun y hy => h y (List.mem_cons_of_mem _ hy)
    refine Eq.trans this ?_
    exact put_other _ _ (bytes_ne (h x List.mem_cons_self).symm)

theorem hashLoop_other (lib : Lib) (k : Id) (block : UInt64 → Option (UInt64 × Id)) (hb : ∀ n, block n ≠ none)
    (hk : ∀ n, lib.K (numberBytes n) ≠ k) : ∀ (j : Nat) (n : UInt64) (kv : Kv),
    ∃ kv', hashLoop lib block j n kv = (kv', .ok ()) ∧ kv' k.bytes = kv k.bytes
  | 0, _, kv => ⟨kv, rfl, rfl⟩
  | j + 1, n, kv => by
    cases hx : block n with
    | none => exact absurd hx (hb n)
    | some b =>
      obtain ⟨kv', h1, h2⟩ := hashLoop_other lib k block hb hk j (n + 1) (kv.put (lib.K (numberBytes b.1)).bytes b.2.bytes)
      refine ⟨kv', by simp only [hashLoop, hx, h1], h2.trans ?_⟩
      exact put_other _ _ (bytes_ne (hk b.1).symm)

/-- A failed import does not clean up: the accounts it has read stay in the database. After another import that succeeds, they
are read as part of its state, although they are not in its state trie. -/
theorem C81_ghost_violated (lib : Lib) (Holds : Nodes → (Id → Option Bytes) → Prop) (hl : lib.Sound Holds) (c : Codecs)
    (nodes : Nat → List Bytes) (block : UInt64 → Option (UInt64 × Id)) (hb : ∀ n, block n ≠ none)
    (a : Address) (g : Group) (hga : g.account.addressHash = lib.K (addressBytes a))
    (hg : lib.rootOf (slotContent lib g.slots) = g.account.state.storageRoot ∧
      lib.K g.account.bytecode = g.account.state.codeHash)
    (bad good : Bytes) (h1 h2 : Header) (hs1 : Says c bad h1 [g]) (hr1 : h1.stateRoot ≠ lib.rootOf (accountContent lib [g]))
    (hs2 : Says c good h2 []) (hr2 : h2.stateRoot = lib.emptyRoot) (hlt : h2.number.toNat + 1 < 2 ^ 64)
    (hk : lib.K (addressBytes a) ≠ lib.K [] ∧ lib.K (addressBytes a) ≠ 0 ∧
      (∀ n, lib.K (numberBytes n) ≠ lib.K (addressBytes a)) ∧ ∀ k, ∀ x ∈ nodes k, lib.K x ≠ lib.K (addressBytes a)) :
    ∃ d1 d2, importAll c lib nodes block bad (Disk.fresh lib) = (d1, .err) ∧
      importAll c lib nodes block good d1 = (d2, .ok h2) ∧ d2.trie = (fun _ => none) ∧ d2.root = lib.emptyRoot ∧
      basic lib (d2.open lib) a =
        some (some ⟨g.account.state.nonce, g.account.state.balance, g.account.state.codeHash⟩) := by
  obtain ⟨k1, k2, k3, k4⟩ := hk
  obtain ⟨db, g1, g2⟩ : ∃ db', importGroup lib ((Disk.fresh lib).open lib) g = (db', true) ∧
      Loaded lib Holds ((Disk.fresh lib).open lib) db' g := by
    rcases importGroup_cases hl ((Disk.fresh lib).open lib) g with ⟨_, db', q1, q2⟩ | ⟨hn, _⟩
    · exact ⟨db', q1, q2⟩
    · exact absurd hg hn
  have hloop : groupsLoop lib nodes 0 [g] ((Disk.fresh lib).open lib) = (db, .ok 1) := by
    simp only [groupsLoop, g1, afterGroup]
    rfl
  have htrie : db.trie = accountContent lib [g] := by
    rw [g2.trie]
    funext k
    by_cases e : k = g.account.addressHash
    · simp [accountContent, e]
    · have e' : ¬ g.account.addressHash = k := fun x => e x.symm
      simp [accountContent, e, e', Disk.open, Disk.fresh]
  have hi1 : importState c lib nodes bad ((Disk.fresh lib).open lib) = ((commitTrie lib db (nodes 1)).2, .err) := by
    rw [importState_says c lib nodes bad h1 [g] hs1, hloop]
    simp only
    rw [if_pos (by rw [htrie]; exact hr1)]
  have h0 : ¬ (Disk.fresh lib).next ≠ 0 := fun h => h rfl
  obtain ⟨d1, hd1⟩ : ∃ d1 : Disk, d1 = { Disk.fresh lib with kv := (commitTrie lib db (nodes 1)).2.kv } := ⟨_, rfl⟩
  have hkv1 : d1.kv (lib.K (addressBytes a)).bytes = some (lib.encodeAccount g.account.state) := by
    rw [hd1]
    show (commitTrie lib db (nodes 1)).2.kv _ = _
    rw [commitTrie_other lib _ _ _ (k4 1), ← hga]
    exact g2.record
  have hopen : ∀ d : Disk, (d.open lib).kv (lib.K (addressBytes a)).bytes = d.kv (lib.K (addressBytes a)).bytes := by
    intro d
    show Kv.put (Kv.put d.kv _ _) _ _ _ = _
    rw [put_other _ _ (bytes_ne k2), put_other _ _ (bytes_ne k1)]
  have hi2 : importState c lib nodes good (d1.open lib) = ((commitTrie lib (d1.open lib) (nodes 0)).2, .ok h2) := by
    rw [importState_says c lib nodes good h2 [] hs2]
    simp only [groupsLoop]
    rw [if_neg]
    intro hne
    apply hne
    rw [hr2, hd1]
    exact hl.emptyRoot.symm
  obtain ⟨kv, q1, q2⟩ := hashLoop_other lib (lib.K (addressBytes a)) block hb k3
    (h2.number.toNat - (if h2.number ≤ 256 then 0 else h2.number - 256 : UInt64).toNat + 1)
    (if h2.number ≤ 256 then 0 else h2.number - 256) (commitTrie lib (d1.open lib) (nodes 0)).2.kv
  have hq : importHashes lib block h2.number (commitTrie lib (d1.open lib) (nodes 0)).2.kv = (kv, .ok ()) := q1
  have hct : ∀ (l : List Bytes) (x : Db), (commitTrie lib x l).2.trie = x.trie := fun _ _ => rfl
  refine ⟨d1, ⟨kv, (commitTrie lib (d1.open lib) (nodes 0)).2.trie, h2.number + 1, h2.stateRoot⟩, ?_, ?_, ?_, hr2, ?_⟩
  · rw [importAll, if_neg h0]
    simp only [hi1, hd1]
  · have h0' : ¬ d1.next ≠ 0 := fun h => h (by rw [hd1]; rfl)
    rw [importAll, if_neg h0']
    simp only [hi2]
    rw [if_neg (by omega)]
    simp only [hq, Res.map, Res.bind]
  · show (commitTrie lib (d1.open lib) (nodes 0)).2.trie = _
    rw [hct, hd1]
    rfl
  · have hfinal : (Disk.open lib ⟨kv, (commitTrie lib (d1.open lib) (nodes 0)).2.trie, h2.number + 1, h2.stateRoot⟩).kv
        (lib.K (addressBytes a)).bytes = some (lib.encodeAccount g.account.state) := by
      rw [hopen]
      show kv _ = _
      rw [q2, commitTrie_other lib _ _ _ (k4 0), hopen, hkv1]
    have := fetch_of_record (k := lib.K (addressBytes a)) hl
      (i := some ⟨g.account.state.nonce, g.account.state.balance, g.account.state.codeHash⟩)
      (root := g.account.state.storageRoot) (hfinal.trans rfl)
    simp only [basic, this]
    rfl

/-! ## Codecs and iterators that meet the expectations -/

namespace SnapshotExample
open EvmDbExample

def word (b : Bytes) : BitVec 256 := BitVec.ofNat 256 (fromBe b)

theorem word_bytes (x : BitVec 256) : word (Id.bytes x) = x := by simp [word, Id.fromBe_bytes]

def encItems : List StorageItem → Bytes
  | [] => []
  | i :: l => i.index.bytes ++ (Id.bytes i.value ++ encItems l)

def decItems : Nat → Bytes → List StorageItem
  | 0, _ => []
  | n + 1, b => if b = [] then [] else ⟨word (b.take 32), word ((b.drop 32).take 32)⟩ :: decItems n ((b.drop 32).drop 32)

theorem encItems_length : ∀ l : List StorageItem, (encItems l).length = 64 * l.length
  | [] => rfl
  | i :: l => by
    simp only [encItems, List.length_append, Id.bytes_length, encItems_length l, List.length_cons]
    omega

theorem decItems_enc : ∀ (l : List StorageItem) (n : Nat), l.length ≤ n → decItems n (encItems l) = l
  | [], n, _ => by cases n <;> simp [encItems, decItems]
  | i :: l, 0, h => by simp at h
  | i :: l, n + 1, h => by
    have h1 := Id.bytes_length i.index
    have h2 := Id.bytes_length i.value
    have hne : ¬ (i.index.bytes ++ (Id.bytes i.value ++ encItems l)) = [] := by
      intro e
      have := congrArg List.length e
      simp [h1] at this
    rw [encItems, decItems, if_neg hne, List.take_left' h1, List.drop_left' h1, List.take_left' h2, List.drop_left' h2, word_bytes, word_bytes,
      decItems_enc l n (by simp at h; omega)]

def codecs : Codecs where
  header :=
    { enc := fun h => toBe 8 h.number.toNat ++ (h.stateRoot.bytes ++ h.rest)
      dec := fun b => some ⟨UInt64.ofNat (fromBe (b.take 8)), word ((b.drop 8).take 32), (b.drop 8).drop 32⟩ }
  account :=
    { enc := fun a => a.addressHash.bytes ++ (toBe 8 a.state.nonce.toNat ++ (Id.bytes a.state.balance ++
        (a.state.storageRoot.bytes ++ (a.state.codeHash.bytes ++ (toBe 4 a.storageCount.toNat ++ a.bytecode)))))
      dec := fun b =>
        let b1 := b.drop 32
        let b2 := b1.drop 8
        let b3 := b2.drop 32
        let b4 := b3.drop 32
        let b5 := b4.drop 32
        some ⟨word (b.take 32), ⟨UInt64.ofNat (fromBe (b1.take 8)), word (b2.take 32), word (b3.take 32), word (b4.take 32)⟩,
          b5.drop 4, UInt32.ofNat (fromBe (b5.take 4))⟩ }
  storage := { enc := encItems, dec := fun b => some (decItems b.length b) }

theorem lawful : Lawful codecs where
  header := by
    intro h
    have h1 : (toBe 8 h.number.toNat).length = 8 := by simp
    have h2 := Id.bytes_length h.stateRoot
    have hn : h.number.toNat < 256 ^ 8 := by have := h.number.toNat_lt; omega
    simp only [codecs]
    rw [List.take_left' h1, List.drop_left' h1, List.take_left' h2, List.drop_left' h2, word_bytes, fromBe_toBe_of_lt hn]
    simp
  account := by
    intro a
    have h1 := Id.bytes_length a.addressHash
    have h2 : (toBe 8 a.state.nonce.toNat).length = 8 := by simp
    have h3 := Id.bytes_length a.state.balance
    have h4 := Id.bytes_length a.state.storageRoot
    have h5 := Id.bytes_length a.state.codeHash
    have h6 : (toBe 4 a.storageCount.toNat).length = 4 := by simp
    have hn : a.state.nonce.toNat < 256 ^ 8 := by have := a.state.nonce.toNat_lt; omega
    have hm : a.storageCount.toNat < 256 ^ 4 := by have := a.storageCount.toNat_lt; omega
    simp only [codecs]
    rw [List.take_left' h1, List.drop_left' h1, List.take_left' h2, List.drop_left' h2, List.take_left' h3,
      List.drop_left' h3, List.take_left' h4, List.drop_left' h4, List.take_left' h5, List.drop_left' h5, List.take_left' h6,
      List.drop_left' h6, word_bytes, word_bytes, word_bytes, word_bytes, fromBe_toBe_of_lt hn, fromBe_toBe_of_lt hm]
    simp
  storage := by
    intro l
    simp only [codecs]
    rw [decItems_enc l _ (by rw [encItems_length]; omega)]

theorem sizes : Sizes codecs scope where
  account := by
    intro a ha
    have : a.bytecode.length ≤ 3 := by
      rcases ha with ha | ha
      · simp only [scope, List.mem_singleton] at ha
        rw [ha]
        simp
      · rw [ha]; simp
    simp [codecs, Id.bytes_length]
    omega
  storage := by
    intro l hl
    simp only [codecs, encItems_length]
    omega
  slots := by decide

theorem sorted_keys : ∀ keys : List Id, ∃ l : List Id, (l.Pairwise fun x y => x.toNat < y.toNat) ∧ ∀ k, k ∈ l ↔ k ∈ keys
  | [] => ⟨[], List.Pairwise.nil, by simp⟩
  | x :: keys => by
    obtain ⟨l, h1, h2⟩ := sorted_keys keys
    have ins : ∀ l : List Id, (l.Pairwise fun x y => x.toNat < y.toNat) →
        ∃ l' : List Id, (l'.Pairwise fun x y => x.toNat < y.toNat) ∧ ∀ k, k ∈ l' ↔ k = x ∨ k ∈ l := by
      intro l
      induction l with
      | nil => intro _; exact ⟨[x], by simp, by simp⟩
      | cons y l ih =>
        intro hp
        have hp' := List.pairwise_cons.mp hp
        rcases Nat.lt_trichotomy x.toNat y.toNat with h | h | h
        · refine ⟨x :: y :: l, List.pairwise_cons.mpr ⟨?_, hp⟩, by simp⟩
          intro z hz
          rcases List.mem_cons.mp hz with rfl | hz
          · exact h
          · exact Nat.lt_trans h (hp'.1 z hz)
        · have e : x = y := BitVec.eq_of_toNat_eq h
          subst e
          exact ⟨x :: l, hp, by simp⟩
        · obtain ⟨l', g1, g2⟩ := ih hp'.2
          refine ⟨y :: l', List.pairwise_cons.mpr ⟨?_, g1⟩, ?_⟩
          · intro z hz
            rcases (g2 z).mp hz with rfl | hz
            · exact h
            · exact hp'.1 z hz
          · intro k
            simp only [List.mem_cons, g2]
            constructor
            · rintro (h | h | h) <;> simp [h]
            · rintro (h | h | h) <;> simp [h]
    obtain ⟨l', g1, g2⟩ := ins l h1
    exact ⟨l', g1, fun k => by rw [g2, h2, List.mem_cons]⟩

theorem lists_exist (m : Id → Option Bytes) (keys : List Id) (h : ∀ k, m k ≠ none → k ∈ keys) : ∃ l, Lists l m := by
  obtain ⟨l, h1, h2⟩ := sorted_keys keys
  refine ⟨l.filterMap fun k => (m k).map fun v => (k, v), ?_, ?_⟩
  · refine List.Pairwise.filterMap (R := fun x y : Id => x.toNat < y.toNat) _ ?_ h1
    intro x y hxy b hb b' hb'
    obtain ⟨v, _, rfl⟩ := Option.map_eq_some_iff.mp hb
    obtain ⟨v', _, rfl⟩ := Option.map_eq_some_iff.mp hb'
    exact hxy
  · intro k v
    simp only [List.mem_filterMap, Option.map_eq_some_iff, Prod.mk.injEq]
    constructor
    · rintro ⟨a, _, x, hx, rfl, rfl⟩
      exact hx
    · intro hk
      exact ⟨k, (h2 k).mpr (h k (by rw [hk]; simp)), v, hk, rfl, rfl⟩

open Classical in
noncomputable def listOf (m : Id → Option Bytes) : List (Id × Bytes) := if h : ∃ l, Lists l m then h.choose else []

theorem listOf_lists {m : Id → Option Bytes} {keys : List Id} (h : ∀ k, m k ≠ none → k ∈ keys) : Lists (listOf m) m := by
  have := lists_exist m keys h
  simp only [listOf, dif_pos this]
  exact this.choose_spec

noncomputable def iter : Iter where
  accounts := listOf
  slots nodes _ := some (listOf (look (content nodes)))

theorem iterSound : IterSound lib iter Holds where
  accounts := fun m keys h => listOf_lists h
  slots := by
    intro nodes m keys hh hk hne
    rcases hh with rfl | ⟨l, h1, h2, rfl⟩
    · obtain ⟨k, hk⟩ := hne; exact absurd rfl hk
    · refine ⟨_, rfl, ?_⟩
      rw [content_ser h2]
      exact listOf_lists hk

theorem codesKnown : CodesKnown lib scope (world lib ops) := by
  intro a ha i hi
  have hK : ∀ b, lib.K b = K b := fun _ => rfl
  have h1 : (world lib ops).account alice = some ⟨1, 900, K []⟩ := by decide +kernel
  have h2 : (world lib ops).account token = some ⟨1, 50, K [1, 2, 3]⟩ := by decide +kernel
  have h3 : (world lib ops).account bob = none := by decide +kernel
  have c1 : (world lib ops).code (K []) = some [] := by decide +kernel
  have c2 : (world lib ops).code (K [1, 2, 3]) = some [1, 2, 3] := by decide +kernel
  simp only [scope, List.mem_cons, List.not_mem_nil, or_false] at ha
  rcases ha with rfl | rfl | rfl
  · rw [h1] at hi; cases hi
    exact ⟨[], Or.inr rfl, c1, rfl⟩
  · rw [h2] at hi; cases hi
    exact ⟨[1, 2, 3], Or.inl (by simp [scope]), c2, rfl⟩
  · rw [h3] at hi; cases hi

def head : Header := ⟨3, 77, [1, 2]⟩

def more : List Op :=
  [.bundle ⟨[(alice, some ⟨2, 800, K []⟩)], [], [⟨token, false, [(4, 9)]⟩]⟩, .trie [List.replicate 40 7]]

theorem more_covers : ∀ op ∈ more, scope.Covers lib op := by
  intro op hop
  simp only [more, List.mem_cons, List.not_mem_nil, or_false] at hop
  have hK : ∀ b, lib.K b = K b := fun _ => rfl
  rcases hop with rfl | rfl <;> simp only [Scope.Covers, hK] <;> decide +kernel

/-- The hypotheses hold for the history of C65. The state has a contract with code and a slot, both are there after export
and import, and after further blocks. -/
example : ∃ db file d db', run lib true ops = some db ∧
    exportState codecs lib iter (fun n => if n = 3 then some head else none) (fun _ => false) ⟨db.kv, db.trie, 4, 77⟩ =
      .ok (fileName head, file) ∧
    importAll codecs lib (fun _ => [List.replicate 40 7]) (fun n => some (n, BitVec.ofNat 256 (n.toNat + 100))) file
      (Disk.fresh lib) = (d, .ok head) ∧ d.next = 4 ∧
    storage lib (d.open lib) token 3 = some 8 ∧ codeByHash (d.open lib) (K [1, 2, 3]) = some [1, 2, 3] ∧
    blockHash lib (d.open lib) 2 = some 102 ∧ more.foldlM (step lib) (d.open lib) = some db' ∧
    basic lib db' alice = some (some ⟨2, 800, K []⟩) ∧ storage lib db' token 4 = some 9 ∧
    storage lib db' token 3 = some 8 := by
  obtain ⟨db, m, h1, h2, h3, _⟩ := C65_state_root_partial lib Holds sound scope noCollision largeNodes codesApart true ops
    covers []
  have w1 : (world lib ops).account token = some ⟨1, 50, K [1, 2, 3]⟩ := by decide +kernel
  have hne : ¬ m = fun _ => none := by
    intro e
    obtain ⟨mm, _, hmm⟩ := h2.1 token (by simp [scope])
    rw [e, w1] at hmm
    cases hmm
  have hroot : head.stateRoot = lib.rootOf m := by
    simp only [lib, if_neg hne]
    rfl
  obtain ⟨file, d, g1, g2, g3, g4, g5, g6, g7, g8, g9, g10⟩ := C81_roundtrip lib Holds sound scope noCollision largeNodes
    codesApart codecs lawful sizes iter iterSound true ops covers codesKnown db h1 head (by decide) m h2 hroot 77
    (fun n => if n = 3 then some head else none) (by decide) (by simp [codecs, head, Id.bytes_length]) (fun _ => false) rfl
    (fun _ => [List.replicate 40 7]) (by simp [scope]) (fun n => some (n, BitVec.ofNat 256 (n.toNat + 100)))
    (fun n => BitVec.ofNat 256 (n.toNat + 100)) (by
      intro n hn _
      refine ⟨rfl, ?_⟩
      have : head.number.toNat = 3 := rfl
      have hcases : n.toNat = 0 ∨ n.toNat = 1 ∨ n.toNat = 2 ∨ n.toNat = 3 := by omega
      rcases hcases with h | h | h | h
      · rw [UInt64.toNat_inj.mp (h.trans (show 0 = (0 : UInt64).toNat from rfl))]; decide
      · rw [UInt64.toNat_inj.mp (h.trans (show 1 = (1 : UInt64).toNat from rfl))]; decide
      · rw [UInt64.toNat_inj.mp (h.trans (show 2 = (2 : UInt64).toNat from rfl))]; decide
      · rw [UInt64.toNat_inj.mp (h.trans (show 3 = (3 : UInt64).toNat from rfl))]; decide)
  obtain ⟨db', q1, q2, q3, _⟩ := g10 more more_covers
  have v1 : (world lib ops).storage token 3 = 8 := by decide +kernel
  have v2 : (world lib ops).code (K [1, 2, 3]) = some [1, 2, 3] := by decide +kernel
  have v3 : (world lib (ops ++ more)).account alice = some ⟨2, 800, K []⟩ := by decide +kernel
  have v4 : (world lib (ops ++ more)).account token ≠ none := by decide +kernel
  have v5 : (world lib (ops ++ more)).storage token 4 = 9 := by decide +kernel
  have v6 : (world lib (ops ++ more)).storage token 3 = 8 := by decide +kernel
  refine ⟨db, file, d, db', h1, g1, g2, g3, ?_, ?_, ?_, q1, ?_, ?_, ?_⟩
  · rw [g7 token (by simp [scope]) (by rw [w1]; simp) 3 (by decide), v1]
  · exact (g8 token _ w1).trans v2
  · exact (g9 2 (by decide)).trans (by decide)
  · rw [q2 alice (by simp [scope]), v3]
  · rw [q3 token (by simp [scope]) v4 4 (by decide), v5]
  · rw [q3 token (by simp [scope]) v4 3 (by decide), v6]

def carol : Group :=
  ⟨⟨K (addressBytes alice), ⟨7, 9, 55, K [1]⟩, [1], 1⟩, [[]]⟩

/-- A file that can be written and read: an account without slots, whose one part of storage is empty. -/
example : Group.WellFormed carol ∧ Short (records codecs head (items [carol])) ∧
    readFile codecs (fileBytes (records codecs head (items [carol]))) = .ok (head, items [carol]) ∧
    ∃ cut more, more ≠ [] ∧ cut.length = 50 ∧ cut ++ more = recordBytes (0x0800, codecs.account.enc carol.account) ∧
      readFile codecs (fileBytes (records codecs head (items [])) ++ cut) = .ok (head, items []) := by
  have hw : Group.WellFormed carol := by
    refine ⟨rfl, ?_⟩
    intro i p hp
    match i, hp with
    | 0, hp => cases hp; decide
  have hs : Short (records codecs head (items [carol])) := by
    intro r hr
    simp only [records, items, carol, List.flatMap_cons, List.flatMap_nil, List.map_cons, List.map_nil, List.append_nil,
      List.mem_cons, List.not_mem_nil, or_false, itemRecord] at hr
    rcases hr with rfl | rfl | rfl | rfl
    · decide
    · simp [codecs, head, Id.bytes_length]
    · simp [codecs, Id.bytes_length]
    · simp [codecs, encItems]
  have hlen : (recordBytes (0x0800, codecs.account.enc carol.account)).length = 149 := by
    simp [recordBytes_length, codecs, Id.bytes_length, carol]
  have hne : (recordBytes (0x0800, codecs.account.enc carol.account)).drop 50 ≠ [] := by
    intro e
    have := congrArg List.length e
    rw [List.length_drop, hlen] at this
    simp at this
  refine ⟨hw, hs, C81_read_partial codecs lawful head [carol] (by simpa using hw) hs,
    (recordBytes (0x0800, codecs.account.enc carol.account)).take 50,
    (recordBytes (0x0800, codecs.account.enc carol.account)).drop 50, hne, ?_, List.take_append_drop 50 _, ?_⟩
  · rw [List.length_take, hlen]; rfl
  · refine C81_truncated_violated codecs lawful head [] (by simp) ?_ carol.account ?_ _
      ((recordBytes (0x0800, codecs.account.enc carol.account)).drop 50) hne (List.take_append_drop 50 _)
    · intro r hr
      simp only [records, items, List.flatMap_nil, List.map_nil, List.mem_cons, List.not_mem_nil, or_false] at hr
      rcases hr with rfl | rfl
      · decide
      · simp [codecs, head, Id.bytes_length]
    · simp [codecs, carol, Id.bytes_length]

theorem number_alice (n : UInt64) : K (numberBytes n) ≠ K (addressBytes alice) := by
  intro e
  have h1 := congrArg BitVec.toNat e
  have h2 : (K (addressBytes alice)).toNat = 256 ^ 20 + 0xa1 + 20000 := by decide +kernel
  have h3 : fromBe (1 :: numberBytes n) = 256 ^ 32 + n.toNat := by
    have : fromBe (1 :: numberBytes n) = 256 ^ (numberBytes n).length + fromBe (numberBytes n) := by
      rw [fromBe_cons]; simp
    rw [this, numberBytes_length, fromBe_numberBytes]
  rw [h2, K, BitVec.toNat_ofNat, h3, numberBytes_length] at h1
  have := n.toNat_lt
  omega

/-- A failed and a good import, as in `C81_ghost_violated`: a snapshot with one account, whose header has another root, and
the snapshot of the empty state. -/
example : ∃ bad good d1 d2,
    importAll codecs lib (fun _ => []) (fun n => some (n, 5)) bad (Disk.fresh lib) = (d1, .err) ∧
    importAll codecs lib (fun _ => []) (fun n => some (n, 5)) good d1 = (d2, .ok ⟨5, 55, []⟩) ∧
    d2.trie = (fun _ => none) ∧ d2.root = lib.emptyRoot ∧ basic lib (d2.open lib) alice = some (some ⟨7, 9, K [1]⟩) := by
  have p1 : lib.rootOf (slotContent lib carol.slots) = carol.account.state.storageRoot := by
    have : slotContent lib carol.slots = fun _ => none := rfl
    rw [this]
    exact sound.emptyRoot
  have p2 : ∀ g ∈ [carol], g.WellFormed := by
    intro g hg
    rw [List.mem_singleton.mp hg]
    refine ⟨rfl, ?_⟩
    intro i p hp
    match i, hp with
    | 0, hp => cases hp; decide
  have p3 : Short (records codecs ⟨3, 78, []⟩ (items [carol])) := by
    intro r hr
    simp only [records, items, carol, List.flatMap_cons, List.flatMap_nil, List.map_cons, List.map_nil, List.append_nil,
      List.mem_cons, List.not_mem_nil, or_false, itemRecord] at hr
    rcases hr with rfl | rfl | rfl | rfl
    · decide
    · simp [codecs, Id.bytes_length]
    · simp [codecs, Id.bytes_length]
    · simp [codecs, encItems]
  have p4 : (⟨3, 78, []⟩ : Header).stateRoot ≠ lib.rootOf (accountContent lib [carol]) := by
    simp only [lib]
    split <;> decide
  have p5 : Short (records codecs ⟨5, 55, []⟩ (items [])) := by
    intro r hr
    simp only [records, items, List.flatMap_nil, List.map_nil, List.mem_cons, List.not_mem_nil, or_false] at hr
    rcases hr with rfl | rfl
    · decide
    · simp [codecs, Id.bytes_length]
  have p6 : K (addressBytes alice) ≠ K [] := by decide +kernel
  have p7 : K (addressBytes alice) ≠ 0 := by decide +kernel
  obtain ⟨d1, d2, h⟩ := C81_ghost_violated lib Holds sound codecs (fun _ => []) (fun n => some (n, 5)) (by simp) alice carol rfl
    ⟨p1, rfl⟩ (fileBytes (records codecs ⟨3, 78, []⟩ (items [carol]))) (fileBytes (records codecs ⟨5, 55, []⟩ (items [])))
    ⟨3, 78, []⟩ ⟨5, 55, []⟩ (says_file lawful p2 p3) p4 (says_file lawful (by simp) p5) rfl (by decide)
    ⟨p6, p7, number_alice, by simp⟩
  exact ⟨_, _, d1, d2, h⟩

end SnapshotExample

end Verif.Props
