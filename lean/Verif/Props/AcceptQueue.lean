import Verif.Lemmas.AcceptQueue

/-! # C13: one transfer of a key at a time, and what happens to the other offers

All theorems speak of a queue that started empty and saw any sequence of calls `ops` with a clock
that does not go back; `record k` is the specification of what is under way for `k`. -/

namespace Verif.Props
open Verif.AQ

variable {K P : Type} [DecidableEq K] [DecidableEq P]

/-- While a transfer of `k` is under way and `k` was last offered less than 120 seconds ago, a further
offer of `k` is not accepted, from no peer. -/
theorem C13_busy (c : Nat) (ops : List (Op K P)) (now pick : Nat) (k : K) (p : P) (t : Nat) (ps : List P)
    (hc : ClockOk c (ops ++ [.add now pick k p]))
    (hr : record k (run [] ops).2 = some (t, ps)) (hnow : now < t + 120000) :
    (step (run [] ops).1 (.add now pick k p)).2 = .offered now k p false := by
  obtain ⟨h1, h2⟩ := clockOk_snoc hc
  have hx := (reach_inv c ops h1).expire (pick := pick) h2
  show Event.offered now k p (addKey _ now pick k p).2 = _
  congr 1
  rw [← Bool.not_eq_true, addKey_snd]
  intro hall
  rcases hx.gone k t ps hr with ⟨e, he, hk⟩ | hg
  · exact hall e he hk
  · have : timeout = 120000 := rfl
    omega

/-- When no transfer of `k` is under way an offer of `k` is accepted. -/
theorem C13_free (c : Nat) (ops : List (Op K P)) (now pick : Nat) (k : K) (p : P)
    (hc : ClockOk c (ops ++ [.add now pick k p]))
    (hr : record k (run [] ops).2 = none) :
    (step (run [] ops).1 (.add now pick k p)).2 = .offered now k p true := by
  obtain ⟨h1, h2⟩ := clockOk_snoc hc
  have hx := (reach_inv c ops h1).expire (pick := pick) h2
  show Event.offered now k p (addKey _ now pick k p).2 = _
  congr 1
  rw [addKey_snd]
  intro e he hk
  obtain ⟨t, -, hrec⟩ := hx.entry e he
  rw [hk, hr] at hrec
  cases hrec

/-- Once the transfer of `k` has ended, whether processed or failed, the next offer of `k` is
accepted, whatever happened to other keys in between. -/
theorem C13_again (c : Nat) (ops between : List (Op K P)) (o : Op K P) (now pick : Nat) (k : K) (p : P)
    (ho : o = .remove k ∨ ∃ pk, o = .failed k pk)
    (hb : ∀ n pk k' p', Op.add n pk k' p' ∈ between → k' ≠ k)
    (hc : ClockOk c (ops ++ o :: between ++ [.add now pick k p])) :
    (step (run [] (ops ++ o :: between)).1 (.add now pick k p)).2 = .offered now k p true := by
  refine C13_free c _ now pick k p hc ?_
  have key : ∀ (bs : List (Op K P)) (q : List (Entry K P)),
      (∀ n pk k' p', Op.add n pk k' p' ∈ bs → k' ≠ k) →
      (run q bs).2.foldl (recordStep k) none = none := by
    intro bs
    induction bs with
    | nil => intro q _; rfl
    | cons b bs ih =>
      intro q hbs
      show (run (step q b).1 bs).2.foldl (recordStep k) (recordStep k none (step q b).2) = none
      have : recordStep k none (step q b).2 = none := by
        cases b with
        | add n pk k' p' =>
          have := hbs n pk k' p' List.mem_cons_self
          show (if k' = k then _ else none) = none
          rw [if_neg this]
        | remove k' => show (if k' = k then none else none) = none; split <;> rfl
        | failed k' pk => show (if k' = k then none else none) = none; split <;> rfl
      rw [this]
      exact ih _ (fun n pk k' p' hm => hbs n pk k' p' (List.mem_cons_of_mem _ hm))
  unfold record
  rw [run_append]
  show ((run [] ops).2 ++ _).foldl (recordStep k) none = none
  rw [List.foldl_append]
  show (run (step (run [] ops).1 o).1 between).2.foldl (recordStep k)
    (recordStep k _ (step (run [] ops).1 o).2) = none
  have : ∀ r, recordStep k r (step (run [] ops).1 o).2 = none := by
    intro r
    rcases ho with rfl | ⟨pk, rfl⟩
    · show (if k = k then none else r) = none; rw [if_pos rfl]
    · show (if k = k then none else r) = none; rw [if_pos rfl]
  rw [this]
  exact key between _ hb

/-- A transfer that was forgotten does not block its key for ever: if `k` has not been offered for
120 seconds, and it is the only such key, the next offer of `k` is accepted. -/
theorem C13_stale_partial (c : Nat) (ops : List (Op K P)) (now pick : Nat) (k : K) (p : P) (t : Nat)
    (ps : List P) (hc : ClockOk c (ops ++ [.add now pick k p]))
    (hr : record k (run [] ops).2 = some (t, ps)) (hnow : t + 120000 ≤ now)
    (honly : ∀ k' t' ps', k' ≠ k → record k' (run [] ops).2 = some (t', ps') → now < t' + 120000) :
    (step (run [] ops).1 (.add now pick k p)).2 = .offered now k p true := by
  obtain ⟨h1, h2⟩ := clockOk_snoc hc
  have hi := reach_inv c ops h1
  show Event.offered now k p (addKey _ now pick k p).2 = _
  congr 1
  rw [addKey_snd]
  have hT : timeout = 120000 := rfl
  rcases expireOne_spec now pick (run [] ops).1 with ⟨he, hall⟩ | ⟨e, he, hx, hrm⟩
  · rw [he]
    intro e hm hk
    obtain ⟨t', h3, h4⟩ := hi.entry e hm
    rw [hk, hr] at h4
    have : t = t' := congrArg Prod.fst (Option.some.inj h4)
    have := hall e hm
    omega
  · rw [hrm]
    obtain ⟨t', h3, h4⟩ := hi.entry e he
    have hke : e.key = k := by
      apply Classical.byContradiction
      intro hne
      have := honly e.key t' _ hne h4
      omega
    rw [hke]
    intro e' hm
    exact (mem_removeKey.1 hm).2

/-- The first peer of a record is the one the transfer was accepted from; the peers of a record are
pairwise different. -/
theorem C13_record_peers (c : Nat) (ops : List (Op K P)) (hc : ClockOk c ops) (k : K) (t : Nat)
    (ps : List P) (hr : record k (run [] ops).2 = some (t, ps)) : ps.Nodup ∧ ps ≠ [] :=
  ((reach_inv c ops hc).shape k t ps hr).2

/-- After a failed transfer the peer to ask instead is one of those that offered the key while the
transfer was under way, never the peer that failed. -/
theorem C13_fallback_offered (c : Nat) (ops : List (Op K P)) (hc : ClockOk c ops) (k : K) (pick : Nat)
    (p : P) (h : (step (run [] ops).1 (.failed k pick)).2 = .failed k (some p)) :
    ∃ t origin others, record k (run [] ops).2 = some (t, origin :: others) ∧ p ∈ others ∧ p ≠ origin := by
  have hi := reach_inv c ops hc
  have h' : (processFailed (run [] ops).1 k pick).2 = some p := by
    have : Event.failed k (processFailed (run [] ops).1 k pick).2 = .failed k (some p) := h
    injection this
  unfold processFailed at h'
  cases hl : lookup (run [] ops).1 k with
  | none => rw [hl] at h'; cases h'
  | some e =>
    rw [hl] at h'
    obtain ⟨he, hk⟩ := lookup_some hl
    obtain ⟨t, -, hr⟩ := hi.entry e he
    rw [hk] at hr
    have hp := List.mem_of_getElem? h'
    refine ⟨t, e.origin, e.fallback, hr, hp, ?_⟩
    have := (hi.shape k _ _ hr).2.1
    rw [List.nodup_cons] at this
    rintro rfl
    exact this.1 hp

/-- If the key was last offered less than 120 seconds before the last offer of any key, every peer
that offered it while the transfer was under way can be the one to ask, and one of them is asked
unless there is none. -/
theorem C13_fallback_used (c : Nat) (ops : List (Op K P)) (hc : ClockOk c ops) (k : K) (t : Nat)
    (origin : P) (others : List P)
    (hr : record k (run [] ops).2 = some (t, origin :: others))
    (hf : lastOffer c ops < t + 120000) :
    (∀ p ∈ others, ∃ pick, (step (run [] ops).1 (.failed k pick)).2 = .failed k (some p)) ∧
    (others ≠ [] → ∀ pick, ∃ p ∈ others,
      (step (run [] ops).1 (.failed k pick)).2 = .failed k (some p)) ∧
    (others = [] → ∀ pick, (step (run [] ops).1 (.failed k pick)).2 = .failed k none) := by
  have hi := reach_inv c ops hc
  have hT : timeout = 120000 := rfl
  have hlk : ∃ e, lookup (run [] ops).1 k = some e := by
    rcases hi.gone k t _ hr with h | h
    · exact lookup_isSome h
    · omega
  obtain ⟨e, hl⟩ := hlk
  obtain ⟨he, hk⟩ := lookup_some hl
  obtain ⟨t', -, hr'⟩ := hi.entry e he
  rw [hk, hr] at hr'
  have hfb : others = e.fallback := by
    have := congrArg Prod.snd (Option.some.inj hr')
    exact (List.cons.inj this).2
  have hstep : ∀ pick, (step (run [] ops).1 (.failed k pick)).2 =
      .failed k (others[pick % others.length]?) := by
    intro pick
    show Event.failed k (processFailed (run [] ops).1 k pick).2 = _
    unfold processFailed
    rw [hl, hfb]
  refine ⟨?_, ?_, ?_⟩
  · intro p hp
    obtain ⟨i, hi', hip⟩ := List.mem_iff_getElem.1 hp
    refine ⟨i, ?_⟩
    rw [hstep, Nat.mod_eq_of_lt hi', List.getElem?_eq_getElem hi', hip]
  · intro hne pick
    have hlt := Nat.mod_lt pick (List.length_pos_iff.2 hne)
    refine ⟨_, List.getElem_mem hlt, ?_⟩
    rw [hstep, List.getElem?_eq_getElem hlt]
  · rintro rfl pick
    rw [hstep]; rfl

/-- If nothing is under way for a key, reporting its failure names no peer. -/
theorem C13_fallback_none (c : Nat) (ops : List (Op K P)) (hc : ClockOk c ops) (k : K) (pick : Nat)
    (hr : record k (run [] ops).2 = none) :
    (step (run [] ops).1 (.failed k pick)).2 = .failed k none := by
  have hi := reach_inv c ops hc
  show Event.failed k (processFailed (run [] ops).1 k pick).2 = _
  unfold processFailed
  cases hl : lookup (run [] ops).1 k with
  | none => rfl
  | some e =>
    obtain ⟨he, hk⟩ := lookup_some hl
    obtain ⟨t, -, h⟩ := hi.entry e he
    rw [hk, hr] at h
    cases h

/-- Calls about other keys do not change what is under way for `k`: what a queue answers for `k`
depends on `record k` alone, except for the expiry of forgotten transfers. -/
theorem C13_other_keys (k : K) (r : Option (Nat × List P)) (e : Event K P)
    (h : ∀ n p a, e ≠ .offered n k p a) (h' : e ≠ .done k) (h'' : ∀ u, e ≠ .failed k u) :
    recordStep k r e = r := by
  cases e with
  | offered n k' p a =>
    show (if k' = k then _ else r) = r
    rw [if_neg]; rintro rfl; exact h n p a rfl
  | done k' => show (if k' = k then none else r) = r; rw [if_neg]; rintro rfl; exact h' rfl
  | failed k' u => show (if k' = k then none else r) = r; rw [if_neg]; rintro rfl; exact h'' u rfl

/-- Offers of `k` every 100 seconds. -/
def stuckOffers (k : K) (p : P) (t : Nat) : Nat → List (Op K P)
  | 0 => []
  | n + 1 => .add t 0 k p :: stuckOffers k p (t + 100000) n

/-- A forgotten transfer can block its key for ever: every further offer of the key puts off the
expiry, so as long as peers offer it more often than every 120 seconds none of the offers, however
many, is accepted. -/
theorem C13_stale_refresh_violated (k : K) (p : P) (n : Nat) :
    (run [] (.add 0 0 k p :: stuckOffers k p 100000 n)).2 =
      .offered 0 k p true :: (stuckOffers k p 100000 n).map (fun o =>
        match o with
        | .add now _ k p => .offered now k p false
        | .remove k => .done k
        | .failed k _ => .failed k none) := by
  have key : ∀ n t x, t < x → (run [⟨k, p, [], x⟩] (stuckOffers k p t n)).2 =
      (stuckOffers k p t n).map (fun o =>
        match o with
        | .add now _ k p => .offered now k p false
        | .remove k => .done k
        | .failed k _ => .failed k none) := by
    intro n
    induction n with
    | zero => intro t x _; rfl
    | succ n ih =>
      intro t x hx
      have hadd : addKey [⟨k, p, [], x⟩] t 0 k p = ([⟨k, p, [], t + timeout⟩], false) := by
        have : ¬ (x ≤ t) := by omega
        simp [addKey, expireOne, lookup, removeKey, this]
      show Event.offered t k p (addKey [⟨k, p, [], x⟩] t 0 k p).2 ::
        (run (addKey [⟨k, p, [], x⟩] t 0 k p).1 (stuckOffers k p (t + 100000) n)).2 = _
      rw [hadd]
      have hT : timeout = 120000 := rfl
      have := ih (t + 100000) (t + timeout) (by omega)
      rw [this]
      rfl
  have hT : timeout = 120000 := rfl
  have hadd : addKey ([] : List (Entry K P)) 0 0 k p = ([⟨k, p, [], 0 + timeout⟩], true) := by
    simp [addKey, expireOne, lookup]
  show Event.offered 0 k p (addKey [] 0 0 k p).2 ::
    (run (addKey [] 0 0 k p).1 (stuckOffers k p 100000 n)).2 = _
  rw [hadd, key n 100000 _ (by omega)]

/-- One call removes at most one expired key: a key that was not offered for 120 seconds is still
refused when another key has expired too and is removed first. The refusal puts off the expiry. -/
theorem C13_stale_one_at_a_time_violated :
    (run [] [.add 0 0 1 7, .add 0 0 2 7, .add 500000 0 1 8] : List (Entry Nat Nat) × _).2 =
      [.offered 0 1 7 true, .offered 0 2 7 true, .offered 500000 1 8 false] ∧
    ∃ e ∈ (run [] [.add 0 0 1 7, .add 0 0 2 7, .add 500000 0 1 8] : List (Entry Nat Nat) × _).1,
      e.key = 1 ∧ e.expiry = 620000 := by
  decide

/-! ## Concrete cases -/

/-- Offers by 7, 8, 9 of key 1: the first is accepted, the others wait; after the failure 8 or 9 is
asked, and the key is accepted again. -/
example : (run [] [.add 0 0 1 7, .add 10 0 1 8, .add 20 0 1 9, .add 25 0 1 8, .failed 1 1, .add 30 0 1 7]
      : List (Entry Nat Nat) × _).2 =
    [.offered 0 1 7 true, .offered 10 1 8 false, .offered 20 1 9 false, .offered 25 1 8 false,
      .failed 1 (some 9), .offered 30 1 7 true] := by decide

example : record 1 (run [] [.add 0 0 1 7, .add 10 0 1 8, .add 20 0 1 9, .add 25 0 1 8]
      : List (Entry Nat Nat) × _).2 = some (25, [7, 8, 9]) := by decide

/-- A forgotten transfer that is the only one expires. -/
example : (run [] [.add 0 0 1 7, .add 120000 0 1 8] : List (Entry Nat Nat) × _).2 =
    [.offered 0 1 7 true, .offered 120000 1 8 true] := by decide

/-- The hypotheses of the theorems above are met by these runs. -/
example : ClockOk 0 ([.add 0 0 1 7, .add 10 0 1 8, .add 20 0 1 9] : List (Op Nat Nat)) :=
  ⟨Nat.le_refl _, by omega, by omega, trivial⟩

end Verif.Props
