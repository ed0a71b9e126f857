import Verif.Lemmas.E2ssStats
import Verif.Props.E2ss

/-! # C112: the check of state snapshots -/

namespace Verif.Props
open Verif.E2store hiding Header
open Verif.E2ss Verif.EvmDb Verif.Trie Verif.Props.Snapshot

attribute [local irreducible] Id.bytes addressBytes numberBytes maxItems

/-- The tool ends well exactly for files that say something orderly, and prints what there is to count.
Missing: that such files have the format, see `C112_truncated_violated` and `C112_overfull_violated`. -/
theorem C112_accepts_partial (c : Codecs) (K : Bytes → Id) (file : Bytes) (st : Stats) :
    stats c K file = .ok st ↔ ∃ h gs, Says c file h gs ∧ Orderly K gs ∧ st = counts gs := stats_iff c K file st

/-- Without version or header it is an error, every other refusal aborts the process. -/
theorem C112_refuses (c : Codecs) (K : Bytes → Id) (file : Bytes) :
    (stats c K file = .err ↔ ¬ ∃ raw rest h, raw.length < 2 ^ 32 ∧ c.header.dec raw = some h ∧
      file = recordBytes (0x6532, []) ++ (recordBytes (0x0300, raw) ++ rest)) ∧
    (stats c K file = .panic ↔ (∃ raw rest h, raw.length < 2 ^ 32 ∧ c.header.dec raw = some h ∧
      file = recordBytes (0x6532, []) ++ (recordBytes (0x0300, raw) ++ rest)) ∧ ¬ ∃ h gs, Says c file h gs ∧ Orderly K gs) := by
  have hok : (∃ st, stats c K file = .ok st) ↔ ∃ h gs, Says c file h gs ∧ Orderly K gs := by
    constructor
    · rintro ⟨st, h⟩
      obtain ⟨h, gs, h1, h2, _⟩ := (stats_iff c K file st).1 h
      exact ⟨h, gs, h1, h2⟩
    · rintro ⟨h, gs, h1, h2⟩
      exact ⟨_, (stats_iff c K file _).2 ⟨h, gs, h1, h2, rfl⟩⟩
  have herr : stats c K file = .err ↔ readFile c file = .err := by
    rw [(C81_read_only c file).2.1]
    unfold stats
    cases ho : Reader.open c file with
    | err =>
      simp only [Res.bind, true_iff]
      rintro ⟨raw, rest, h, h1, h2, h3⟩
      rw [(open_iff c file h ⟨rest, 0⟩).2 ⟨rfl, raw, h1, h2, h3⟩] at ho
      cases ho
    | panic =>
      have := (C81_read_only c file).2.1
      simp only [Res.bind, reduceCtorEq, false_iff]
      intro hn
      have hr := this.2 hn
      unfold readFile at hr
      rw [ho] at hr
      cases hr
    | ok x =>
      obtain ⟨h, r⟩ := x
      obtain ⟨h1, raw, h2, h3, h4⟩ := (open_iff c file h r).1 ho
      constructor
      · intro he
        exact absurd he (statLoop_err c K _ 0 Stats.zero r h1)
      · intro hn
        exact absurd ⟨raw, r.rem, h, h2, h3, h4⟩ hn
  rw [(C81_read_only c file).2.1] at herr
  refine ⟨herr, ?_⟩
  cases hs : stats c K file with
  | ok st =>
    simp only [reduceCtorEq, false_iff]
    rintro ⟨_, h⟩
    exact h (hok.1 ⟨st, hs⟩)
  | err =>
    simp only [reduceCtorEq, false_iff]
    rintro ⟨h, _⟩
    exact herr.1 hs h
  | panic =>
    simp only [true_iff]
    refine ⟨Classical.byContradiction fun hn => ?_, fun h => ?_⟩
    · rw [herr.2 hn] at hs; cases hs
    · obtain ⟨st, h⟩ := hok.2 h
      rw [hs] at h; cases h

/-- Snapshots in order, with the right codes and no hash zero, are accepted. -/
theorem orderly_of {K : Bytes → Id} {gs : List Group} (hw : ∀ g ∈ gs, g.WellFormed) (hs : Sorted gs) (hz : NoZero gs)
    (hk : ∀ g ∈ gs, K g.account.bytecode = g.account.state.codeHash) : Orderly K gs := by
  have pos : ∀ x : BitVec 256, x ≠ 0 → 0 < x.toNat := by
    intro x hx
    refine Nat.pos_of_ne_zero fun e => hx (BitVec.eq_of_toNat_eq (by rw [e]; rfl))
  refine ⟨⟨?_, ?_⟩, hk, ?_, ?_⟩
  · intro x hx
    obtain ⟨g, hg, rfl⟩ := List.mem_map.1 hx
    exact pos _ (hz.1 g hg)
  · rw [List.pairwise_map]; exact hs.1
  · intro g hg i p hp hi
    have := (hw g hg).2 i p hp
    rwa [if_pos hi] at this
  · intro g hg
    refine ⟨?_, ?_⟩
    · intro x hx
      obtain ⟨y, hy, rfl⟩ := List.mem_map.1 hx
      exact pos _ (hz.2 g hg y hy)
    · rw [List.pairwise_map]; exact hs.2 g hg

/-- What the node exports is accepted, whatever was executed before: as many accounts as the state has, and as many items as
the state has slots that are not zero. -/
theorem C112_exported (lib : Lib) (Holds : Nodes → (Id → Option Bytes) → Prop) (hl : lib.Sound Holds) (s : Scope)
    (hcol : s.NoCollision lib) (hnodes : s.LargeNodes) (hcodes : s.CodesApart) (c : Codecs) (hlaw : Lawful c) (hz : Sizes c s)
    (it : Iter) (hit : IterSound lib it Holds) (cache : Bool) (ops : List Op) (hops : ∀ op ∈ ops, s.Covers lib op)
    (hk : CodesKnown lib s (world lib ops)) (db : Db) (hdb : run lib cache ops = some db) (hd : Header)
    (m : Id → Option Bytes) (hm : StateMap lib s (world lib ops) m) (hroot : hd.stateRoot = lib.rootOf m)
    (next : UInt64) (hn : next ≠ 0) (root : Id) (header : UInt64 → Option Header) (hh : header (next - 1) = some hd)
    (hs : (c.header.enc hd).length + 8 < 2 ^ 32) (taken : List Char → Bool) (ht : taken (fileName hd) = false) :
    ∃ gs file, exportState c lib it header taken ⟨db.kv, db.trie, next, root⟩ = .ok (fileName hd, file) ∧
      Describes lib s (world lib ops) gs ∧ stats c lib.K file = .ok (counts gs) := by
  obtain ⟨gs, g1, g2, g3, g4, g5⟩ := C81_export lib Holds hl s hcol hnodes hcodes c hz it hit cache ops hops hk db hdb hd m hm
    hroot next hn root header hh hs taken ht
  have hshort : Short (records c hd (items gs)) := by
    intro r hr
    simp only [records, List.mem_cons, List.mem_map] at hr
    rcases hr with rfl | rfl | ⟨i, hi, rfl⟩
    · decide
    · exact hs
    · simp only [items, List.mem_flatMap, List.mem_cons, List.mem_map] at hi
      obtain ⟨g, hg, hi⟩ := hi
      rcases hi with rfl | ⟨p, hp, rfl⟩
      · obtain ⟨a, ha, hga⟩ := g2.2.1 g hg
        exact hz.account _ (group_code ha hga hk).1
      · refine hz.storage p ?_
        obtain ⟨n, hn⟩ := List.mem_iff_getElem?.mp hp
        have := (g4 g hg).2 n p hn
        split at this <;> omega
  refine ⟨gs, _, g1, g2, (stats_iff c lib.K _ _).2 ⟨hd, gs, says_file hlaw g4 hshort, ?_, rfl⟩⟩
  refine orderly_of g4 g3 ⟨?_, ?_⟩ (fun g hg => (g5.1 g hg).2)
  · intro g hg
    obtain ⟨a, ha, hga⟩ := g2.2.1 g hg
    rw [hga.1]
    exact hcol.2 _ (List.mem_cons_of_mem _ (by simp only [List.mem_append, List.mem_map]; exact .inl (.inl (.inl (.inl ⟨a, ha, rfl⟩)))))
  · intro g hg x hx
    obtain ⟨a, ha, hga⟩ := g2.2.1 g hg
    obtain ⟨i, hi, rfl, _⟩ := hga.2.2.2.2.1 x hx
    exact hcol.2 _ (List.mem_cons_of_mem _ (by simp only [List.mem_append, List.mem_map]; exact .inl (.inl (.inl (.inr ⟨i, hi, rfl⟩)))))

/-- Everything the tool accepts was in order: no account and no slot twice. -/
theorem C112_no_duplicates (c : Codecs) (K : Bytes → Id) (file : Bytes) (st : Stats) (h : stats c K file = .ok st) :
    ∃ hd gs, Says c file hd gs ∧ readFile c file = .ok (hd, items gs) ∧ (gs.map (·.account.addressHash)).Nodup ∧
      (∀ g ∈ gs, (g.slots.map (·.index)).Nodup) ∧ st.accounts = gs.length := by
  obtain ⟨hd, gs, h1, h2, h3⟩ := (stats_iff c K file st).1 h
  have nodup : ∀ {α : Type} (f : α → BitVec 256) (l : List α), (l.map fun x => (f x).toNat).Pairwise (· < ·) → (l.map f).Nodup := by
    intro α f l hp
    rw [List.Nodup, List.pairwise_map]
    rw [List.pairwise_map] at hp
    refine hp.imp ?_
    intro a b hab e
    rw [e] at hab
    exact Nat.lt_irrefl _ hab
  refine ⟨hd, gs, h1, ((C81_read_only c file).1 hd _).2 ⟨gs, h1, rfl⟩, nodup _ _ h2.accounts.2, ?_, by rw [h3]; rfl⟩
  intro g hg
  exact nodup _ _ (h2.slots g hg).2

/-- A file that ends inside the record of an account is accepted: the accounts before it are counted. -/
theorem C112_truncated_violated (c : Codecs) (hc : Lawful c) (K : Bytes → Id) (h : Header) (gs : List Group)
    (hw : ∀ g ∈ gs, g.WellFormed) (ho : Orderly K gs) (hs : Short (records c h (items gs))) (a : AccountEntry)
    (ha : (c.account.enc a).length < 2 ^ 32) (cut more : Bytes)
    (hm : more ≠ []) (hcut : cut ++ more = recordBytes (0x0800, c.account.enc a)) :
    stats c K (fileBytes (records c h (items gs)) ++ cut) = .ok (counts gs) :=
  (stats_iff c K _ _).2 ⟨h, gs, says_records hc (fun g hg => (hw g hg).1) hs (Or.inr ⟨_, _, more, ha, hm, hcut⟩), ho, rfl⟩

/-- The last part of the storage of an account may have more items than the format allows: such a part is accepted, although
the writer refuses it. -/
theorem C112_overfull_violated (c : Codecs) (hc : Lawful c) (K : Bytes → Id) (h : Header) (a : AccountEntry)
    (l : List StorageItem) (hl : 10000000 < l.length) (hi : Increasing (l.map fun x => x.index.toNat))
    (h0 : a.addressHash ≠ 0) (hk : K a.bytecode = a.state.codeHash) (hn : a.storageCount = 1)
    (hs : Short (records c h (items [⟨a, [l]⟩]))) :
    stats c K (fileBytes (records c h (items [⟨a, [l]⟩]))) = .ok (counts [⟨a, [l]⟩]) ∧ ¬ Group.WellFormed ⟨a, [l]⟩ ∧
      ∀ w, ((Writer.create c h).bind fun w => w.appendAll c (items [⟨a, [l]⟩])) = .ok w → w.pending ≠ 0 := by
  have hnw : ¬ Group.WellFormed ⟨a, [l]⟩ := by
    intro hw
    have := hw.2 0 l rfl
    rw [if_neg (by simp)] at this
    omega
  refine ⟨(stats_iff c K _ _).2 ⟨h, [⟨a, [l]⟩], ?_, ?_, rfl⟩, hnw, ?_⟩
  · have := says_records hc (gs := [⟨a, [l]⟩]) (fun g hg => by rw [List.mem_singleton.1 hg, hn]; rfl) hs (cut := [])
      (Or.inl (by simp))
    rwa [List.append_nil] at this
  · refine ⟨⟨?_, by simp⟩, ?_, ?_, ?_⟩
    · intro x hx
      simp only [List.map_cons, List.map_nil, List.mem_singleton] at hx
      rw [hx]
      exact Nat.pos_of_ne_zero fun e => h0 (BitVec.eq_of_toNat_eq (by rw [e]; rfl))
    · intro g hg; rw [List.mem_singleton.1 hg]; exact hk
    · intro g hg i p _ hi
      rw [List.mem_singleton.1 hg] at hi
      simp only [List.length_cons, List.length_nil] at hi
      omega
    · intro g hg
      rw [List.mem_singleton.1 hg]
      simpa [Group.slots] using hi
  · intro w hw hp
    obtain ⟨gs, g1, g2, _⟩ := (C81_write c h _ w).1 ⟨hw, hp⟩
    cases gs with
    | nil => cases g1
    | cons g gs =>
      obtain ⟨b, ps⟩ := g
      simp only [items, List.flatMap_cons, List.flatMap_nil, List.map_cons, List.map_nil, List.append_nil, List.cons_append,
        List.cons.injEq, Item.account.injEq] at g1
      obtain ⟨rfl, g1⟩ := g1
      cases ps with
      | nil =>
        cases gs with
        | nil => cases g1
        | cons g gs => simp at g1
      | cons p ps =>
        simp only [List.map_cons, List.cons_append, List.cons.injEq, Item.storage.injEq] at g1
        obtain ⟨rfl, g1⟩ := g1
        cases ps with
        | nil => exact hnw (g2 _ List.mem_cons_self)
        | cons q ps => simp at g1

/-! ## The theorems apply -/

namespace SnapshotExample
open EvmDbExample

/-- The history of C65 meets the hypotheses of `C112_exported`: its snapshot is accepted. -/
example : ∃ db gs file, run lib true ops = some db ∧
    exportState codecs lib iter (fun n => if n = 3 then some head else none) (fun _ => false) ⟨db.kv, db.trie, 4, 77⟩ =
      .ok (fileName head, file) ∧ stats codecs lib.K file = .ok (counts gs) ∧ gs ≠ [] := by
  obtain ⟨db, m, h1, h2, h3, _⟩ := C65_state_root_partial lib Holds sound scope noCollision largeNodes codesApart true ops
    covers []
  have w1 : (world lib ops).account token = some ⟨1, 50, K [1, 2, 3]⟩ := by decide +kernel
  have hne : ¬ m = fun _ => none := by
    intro e
    obtain ⟨mm, _, hmm⟩ := h2.1 token (by simp [scope])
    rw [e, w1] at hmm
    cases hmm
  have hroot : head.stateRoot = lib.rootOf m := by
    simp only [lib, if_neg hne]
    rfl
  obtain ⟨gs, file, g1, g2, g3⟩ := C112_exported lib Holds sound scope noCollision largeNodes codesApart codecs lawful sizes
    iter iterSound true ops covers codesKnown db h1 head m h2 hroot 4 (by decide) 77
    (fun n => if n = 3 then some head else none) (by decide) (by simp [codecs, head, Id.bytes_length]) (fun _ => false) rfl
  refine ⟨db, gs, file, h1, g1, g3, ?_⟩
  rintro rfl
  obtain ⟨g, hg, _⟩ := g2.2.2 token (by simp [scope]) (by rw [w1]; simp)
  cases hg

/-- Many items in order. -/
def many (n : Nat) : List StorageItem := (List.range n).map fun i => ⟨BitVec.ofNat 256 (i + 1), 1⟩

theorem many_increasing (n : Nat) (h : n + 1 < 2 ^ 256) : Increasing ((many n).map fun x => x.index.toNat) := by
  have hm : ∀ i, i < n → (BitVec.ofNat 256 (i + 1)).toNat = i + 1 := by
    intro i hi
    rw [BitVec.toNat_ofNat, Nat.mod_eq_of_lt (by omega)]
  constructor
  · intro x hx
    simp only [many, List.map_map, List.mem_map, List.mem_range, Function.comp] at hx
    obtain ⟨i, hi, rfl⟩ := hx
    rw [hm i hi]
    omega
  · simp only [many, List.map_map, List.pairwise_map, Function.comp]
    refine List.Pairwise.imp_of_mem ?_ List.pairwise_lt_range
    intro i j hi hj hij
    rw [hm i (List.mem_range.1 hi), hm j (List.mem_range.1 hj)]
    omega

theorem many_length (n : Nat) : (many n).length = n := by simp [many]

def dave : AccountEntry := ⟨K (addressBytes alice), ⟨7, 9, 55, K [1]⟩, [1], 1⟩

/-- A part of more than ten million items meets the hypotheses of `C112_overfull_violated`. -/
example (n : Nat) (h1 : 10000000 < n) (h2 : n < 20000000) :
    stats codecs K (fileBytes (records codecs head (items [⟨dave, [many n]⟩]))) = .ok (counts [⟨dave, [many n]⟩]) ∧
    (counts [⟨dave, [many n]⟩]) = ⟨1, 1, 1, n⟩ ∧ ¬ Group.WellFormed ⟨dave, [many n]⟩ := by
  have hs : Short (records codecs head (items [⟨dave, [many n]⟩])) := by
    intro r hr
    simp only [records, items, List.flatMap_cons, List.flatMap_nil, List.map_cons, List.map_nil, List.append_nil,
      List.mem_cons, List.not_mem_nil, or_false, itemRecord] at hr
    rcases hr with rfl | rfl | rfl | rfl
    · decide
    · simp [codecs, head, Id.bytes_length]
    · simp [codecs, dave, Id.bytes_length]
    · simp only [codecs, encItems_length, many_length]
      omega
  obtain ⟨q1, q2, _⟩ := C112_overfull_violated codecs lawful K head dave (many n) (by rw [many_length]; exact h1)
    (many_increasing n (by omega)) (by decide +kernel) rfl rfl hs
  refine ⟨q1, ?_, q2⟩
  simp [counts, Group.slots, many_length, dave]

/-- A file that ends inside the second account meets the hypotheses of `C112_truncated_violated`. -/
example : ∃ cut, cut ≠ [] ∧ stats codecs K (fileBytes (records codecs head (items [carol])) ++ cut) = .ok ⟨1, 1, 1, 0⟩ := by
  have hs : Short (records codecs head (items [carol])) := by
    intro r hr
    simp only [records, items, carol, List.flatMap_cons, List.flatMap_nil, List.map_cons, List.map_nil, List.append_nil,
      List.mem_cons, List.not_mem_nil, or_false, itemRecord] at hr
    rcases hr with rfl | rfl | rfl | rfl
    · decide
    · simp [codecs, head, Id.bytes_length]
    · simp [codecs, Id.bytes_length]
    · simp [codecs, encItems]
  have hw : ∀ g ∈ [carol], g.WellFormed := by
    intro g hg
    rw [List.mem_singleton.mp hg]
    refine ⟨rfl, ?_⟩
    intro i p hp
    match i, hp with
    | 0, hp => cases hp; decide
  have hz : K (addressBytes alice) ≠ 0 := by decide +kernel
  have ho : Orderly K [carol] := by
    refine orderly_of hw ⟨by simp, ?_⟩ ⟨?_, ?_⟩ ?_
    · intro g hg; rw [List.mem_singleton.mp hg]; simp [carol, Group.slots]
    · intro g hg; rw [List.mem_singleton.mp hg]; exact hz
    · intro g hg; rw [List.mem_singleton.mp hg]; simp [carol, Group.slots]
    · intro g hg; rw [List.mem_singleton.mp hg]; rfl
  have hlen : (recordBytes (0x0800, codecs.account.enc carol.account)).length = 149 := by
    simp [recordBytes_length, codecs, Id.bytes_length, carol]
  have hne : (recordBytes (0x0800, codecs.account.enc carol.account)).drop 50 ≠ [] := by
    intro e
    have := congrArg List.length e
    rw [List.length_drop, hlen] at this
    simp at this
  refine ⟨(recordBytes (0x0800, codecs.account.enc carol.account)).take 50, ?_, ?_⟩
  · intro e
    have := congrArg List.length e
    rw [List.length_take, hlen] at this
    simp at this
  · rw [C112_truncated_violated codecs lawful K head [carol] hw ho hs carol.account (by simp [codecs, carol, Id.bytes_length]) _
      _ hne (List.take_append_drop 50 _)]
    simp [counts, carol, Group.slots]

end SnapshotExample

end Verif.Props
