import Verif.Lemmas.Offer
import Verif.Props.AcceptCode
import Verif.Props.Payload
import Verif.Lemmas.ExceptEq

/-! # C14: answering an offer; C15: the accepted content reaches the accepted keys -/

namespace Verif.Props
open Verif.Offer Verif.AQ

variable {K P : Type} [DecidableEq K] [DecidableEq P]

/-- The whole answer of an answerable offer when a slot is free, all keys decode and the store can be
read. -/
theorem handleOffer_ok {h : Host K P} {keys : List Bytes} {v : Versions.Version} {enr : P}
    (q : List (Entry K P)) {ks : List K} {ds : List Decision}
    (hn : keys.length ≤ 64) (he : h.enr = some enr) (hv : h.version enr = .ok v) (hs : h.slot = true)
    (hk : collect h.decodeKey keys = some ks) (hd : collect h.wants ks = some ds) :
    handleOffer h q keys =
      ((verdictLoop h enr 0 q (ks.zip ds)).1, .ok
        (if allDeclined (verdictLoop h enr 0 q (ks.zip ds)).2.1 then
          ⟨0, acceptEncode v.isV1Enabled (verdictLoop h enr 0 q (ks.zip ds)).2.1,
            (verdictLoop h enr 0 q (ks.zip ds)).2.1, none⟩
        else
          ⟨swap16 h.cid, acceptEncode v.isV1Enabled (verdictLoop h enr 0 q (ks.zip ds)).2.1,
            (verdictLoop h enr 0 q (ks.zip ds)).2.1,
            some (verdictLoop h enr 0 q (ks.zip ds)).2.2⟩)) := by
  unfold handleOffer
  rw [if_neg (by simp [maxAcceptCodes]; omega)]
  simp only [he, hv, hs, hk, hd, Bool.true_eq_false, if_false]
  split <;> rfl

/-- When an offer is refused as a whole, and why; the reasons are checked in this order. A refused
offer leaves the queue of transfers as it was. -/
theorem C14_refused (h : Host K P) (q : List (Entry K P)) (keys : List Bytes) :
    ((handleOffer h q keys).2 = .error .tooManyKeys ↔ 64 < keys.length) ∧
    ((handleOffer h q keys).2 = .error .unknownPeer ↔ keys.length ≤ 64 ∧ h.enr = none) ∧
    ((handleOffer h q keys).2 = .error .noCommonVersion ↔
      keys.length ≤ 64 ∧ ∃ enr e, h.enr = some enr ∧ h.version enr = .error e) ∧
    ((handleOffer h q keys).2 = .error .badKey ↔
      (∃ v, Answerable h keys v) ∧ h.slot = true ∧ ∃ raw ∈ keys, h.decodeKey raw = none) ∧
    ((handleOffer h q keys).2 = .error .storage ↔
      (∃ v, Answerable h keys v) ∧ h.slot = true ∧ (∀ raw ∈ keys, h.decodeKey raw ≠ none) ∧
        ∃ raw ∈ keys, ∃ k, h.decodeKey raw = some k ∧ h.wants k = none) ∧
    (∀ e, (handleOffer h q keys).2 = .error e → (handleOffer h q keys).1 = q) := by
  unfold Answerable
  by_cases hn : 64 < keys.length
  · have hh : handleOffer h q keys = (q, .error .tooManyKeys) := by
      unfold handleOffer; rw [if_pos hn]
    have hn' : ¬ keys.length ≤ 64 := by omega
    rw [hh]; simp [hn, hn']
  have hn' : keys.length ≤ 64 := by omega
  cases he : h.enr with
  | none =>
    have hh : handleOffer h q keys = (q, .error .unknownPeer) := by
      unfold handleOffer; rw [if_neg hn, he]
    rw [hh]; simp [hn, hn']
  | some enr =>
    cases hv : h.version enr with
    | error e =>
      have hh : handleOffer h q keys = (q, .error .noCommonVersion) := by
        unfold handleOffer; rw [if_neg hn, he]; simp only [hv]
      rw [hh]; simp [hn, hn', hv]
    | ok v =>
      cases hs : h.slot with
      | false =>
        have hh : ∃ a, handleOffer h q keys = (q, .ok a) := by
          unfold handleOffer; rw [if_neg hn, he]; simp only [hv, hs, if_true]; exact ⟨_, rfl⟩
        obtain ⟨a, hh⟩ := hh
        rw [hh]; simp [hn, hv]
      | true =>
        cases hk : collect h.decodeKey keys with
        | none =>
          have hh : handleOffer h q keys = (q, .error .badKey) := by
            unfold handleOffer; rw [if_neg hn, he]
            simp only [hv, hs, hk, Bool.true_eq_false, if_false]
          have hx := collect_none.1 hk
          rw [hh]
          obtain ⟨raw, hr1, hr2⟩ := hx
          refine ⟨by simp [hn], by simp, by simp [hv], ?_, ?_, by simp⟩
          · simp only [true_iff]
            exact ⟨⟨v, hn', enr, rfl, hv⟩, trivial, raw, hr1, hr2⟩
          · simp only [Except.error.injEq, reduceCtorEq, false_iff]
            rintro ⟨-, -, hall, -⟩
            exact hall raw hr1 hr2
        | some ks =>
          have hall : ∀ raw ∈ keys, h.decodeKey raw ≠ none := by
            intro raw hm hnone
            rw [collect_none.2 ⟨raw, hm, hnone⟩] at hk; cases hk
          obtain ⟨hlen, hks⟩ := collect_some hk
          cases hd : collect h.wants ks with
          | none =>
            have hh : handleOffer h q keys = (q, .error .storage) := by
              unfold handleOffer; rw [if_neg hn, he]
              simp only [hv, hs, hk, hd, Bool.true_eq_false, if_false]
            rw [hh]
            obtain ⟨k, hk1, hk2⟩ := collect_none.1 hd
            obtain ⟨i, hi, hik⟩ := List.mem_iff_getElem.1 hk1
            have hi' : i < keys.length := by omega
            obtain ⟨k', h1, h2⟩ := hks i keys[i] (List.getElem?_eq_getElem hi')
            rw [List.getElem?_eq_getElem hi, Option.some.injEq, hik] at h1
            subst h1
            refine ⟨by simp [hn], by simp, by simp [hv], ?_, ?_, by simp⟩
            · simp only [Except.error.injEq, reduceCtorEq, false_iff]
              rintro ⟨-, -, raw, hr1, hr2⟩
              exact hall raw hr1 hr2
            · simp only [true_iff]
              exact ⟨⟨v, hn', enr, rfl, hv⟩, trivial, hall, keys[i], List.getElem_mem hi', k, h2, hk2⟩
          | some ds =>
            rw [handleOffer_ok q hn' he hv hs hk hd]
            refine ⟨by simp [hn], by simp, by simp [hv], ?_, ?_, by simp⟩
            · simp only [reduceCtorEq, false_iff]
              rintro ⟨-, -, raw, hr1, hr2⟩
              exact hall raw hr1 hr2
            · simp only [reduceCtorEq, false_iff]
              rintro ⟨-, -, -, raw, hr1, k, hr2, hr3⟩
              obtain ⟨i, hi, hik⟩ := List.mem_iff_getElem.1 hr1
              obtain ⟨k', h1, h2⟩ := hks i raw (by rw [List.getElem?_eq_getElem hi, hik])
              rw [hr2, Option.some.injEq] at h2
              subst h2
              rw [collect_none.2 ⟨k, List.mem_of_getElem? h1, hr3⟩] at hd
              cases hd

/-- Without a free slot every key is declined as rate limited, before any key is looked at; no
connection is offered and the queue does not change. -/
theorem C14_no_slot (h : Host K P) (q : List (Entry K P)) (keys : List Bytes) (v : Versions.Version)
    (ha : Answerable h keys v) (hs : h.slot = false) :
    ∃ a, handleOffer h q keys = (q, .ok a) ∧ a.connectionId = 0 ∧ a.task = none ∧
      a.codes = List.replicate keys.length .rateLimited ∧
      a.contentKeys = acceptEncode v.isV1Enabled a.codes := by
  obtain ⟨hn, enr, he, hv⟩ := ha
  refine ⟨⟨0, acceptEncode v.isV1Enabled (keys.map fun _ => .rateLimited),
    keys.map fun _ => .rateLimited, none⟩, ?_, rfl, rfl, ?_, rfl⟩
  · unfold handleOffer
    rw [if_neg (by simp [maxAcceptCodes]; omega)]
    simp only [he, hv, hs, if_true]
  · exact List.map_const' ..

/-- An answered offer with a free slot: what the answer was computed from. -/
theorem handleOffer_inv {h : Host K P} {q : List (Entry K P)} {keys : List Bytes} {a : Answer K}
    (hs : h.slot = true) (ha : (handleOffer h q keys).2 = .ok a) :
    ∃ v enr ks ds, keys.length ≤ 64 ∧ h.enr = some enr ∧ h.version enr = .ok v ∧
      collect h.decodeKey keys = some ks ∧ collect h.wants ks = some ds ∧
      a = (if allDeclined (verdictLoop h enr 0 q (ks.zip ds)).2.1 then
          ⟨0, acceptEncode v.isV1Enabled (verdictLoop h enr 0 q (ks.zip ds)).2.1,
            (verdictLoop h enr 0 q (ks.zip ds)).2.1, none⟩
        else
          ⟨swap16 h.cid, acceptEncode v.isV1Enabled (verdictLoop h enr 0 q (ks.zip ds)).2.1,
            (verdictLoop h enr 0 q (ks.zip ds)).2.1,
            some (verdictLoop h enr 0 q (ks.zip ds)).2.2⟩) := by
  obtain ⟨h1, h2, h3, h4, h5, -⟩ := C14_refused h q keys
  by_cases hn : 64 < keys.length
  · rw [h1.2 hn] at ha; cases ha
  have hn' : keys.length ≤ 64 := by omega
  cases he : h.enr with
  | none => rw [h2.2 ⟨hn', he⟩] at ha; cases ha
  | some enr =>
    cases hv : h.version enr with
    | error e => rw [h3.2 ⟨hn', enr, e, he, hv⟩] at ha; cases ha
    | ok v =>
      cases hk : collect h.decodeKey keys with
      | none =>
        rw [h4.2 ⟨⟨v, hn', enr, he, hv⟩, hs, collect_none.1 hk⟩] at ha; cases ha
      | some ks =>
        cases hd : collect h.wants ks with
        | none =>
          have hh : handleOffer h q keys = (q, .error .storage) := by
            unfold handleOffer; rw [if_neg hn, he]
            simp only [hv, hs, hk, hd, Bool.true_eq_false, if_false]
          rw [hh] at ha; cases ha
        | some ds =>
          rw [handleOffer_ok q hn' he hv hs hk hd] at ha
          exact ⟨v, enr, ks, ds, hn', rfl, hv, rfl, hd, (Except.ok.inj ha).symm⟩

theorem handleOffer_codes {h : Host K P} {q : List (Entry K P)} {keys : List Bytes} {a : Answer K}
    (hs : h.slot = true) (ha : (handleOffer h q keys).2 = .ok a) :
    ∃ v enr ks ds, keys.length ≤ 64 ∧ h.enr = some enr ∧ h.version enr = .ok v ∧
      collect h.decodeKey keys = some ks ∧ collect h.wants ks = some ds ∧
      a.codes = (verdictLoop h enr 0 q (ks.zip ds)).2.1 := by
  obtain ⟨v, enr, ks, ds, h1, h2, h3, h4, h5, rfl⟩ := handleOffer_inv hs ha
  exact ⟨v, enr, ks, ds, h1, h2, h3, h4, h5, by split <;> rfl⟩

/-- One verdict per key, in the order of the offer. A key the store does not want is declined with the
store's reason; a key the store wants is accepted or declined as being transferred already. -/
theorem C14_verdicts (h : Host K P) (q : List (Entry K P)) (keys : List Bytes) (a : Answer K)
    (hs : h.slot = true) (ha : (handleOffer h q keys).2 = .ok a) :
    a.codes.length = keys.length ∧
    ∀ (i : Nat) (raw : Bytes), keys[i]? = some raw → ∃ k d c, h.decodeKey raw = some k ∧
      h.wants k = some d ∧ a.codes[i]? = some c ∧
      match d with
      | .notWithinRadius => c = .notWithinRadius
      | .alreadyStored => c = .alreadyStored
      | .store => c = .accepted ∨ c = .inboundTransferInProgress := by
  obtain ⟨v, enr, ks, ds, hn, he, hv, hk, hd, hc⟩ := handleOffer_codes hs ha
  obtain ⟨l1, k1⟩ := collect_some hk
  obtain ⟨l2, k2⟩ := collect_some hd
  refine ⟨?_, fun i raw hi => ?_⟩
  · rw [hc, verdictLoop_length, List.length_zip]; omega
  · obtain ⟨k, hki, hkd⟩ := k1 i raw hi
    obtain ⟨d, hdi, hdw⟩ := k2 i k hki
    have hz : (ks.zip ds)[i]? = some (k, d) := by
      rw [List.getElem?_zip_eq_some]; exact ⟨hki, hdi⟩
    obtain ⟨c, hci, c1, c2, c3⟩ := verdictLoop_code h enr 0 q _ i k d hz
    refine ⟨k, d, c, hkd, hdw, by rw [hc]; exact hci, ?_⟩
    cases d
    · exact c3 rfl
    · exact c1 rfl
    · exact c2 rfl

/-- A key is accepted only if a slot is free, it decodes, the store wants it, no transfer of it is
under way (or the one under way has not been offered for 120 seconds), and it was not accepted
already at an earlier place of the same offer. `ops` is any history of the queue before the offer. -/
theorem C14_accepted_only_if (h : Host K P) (c0 : Nat) (ops : List (Op K P)) (keys : List Bytes)
    (a : Answer K) (hclock : ClockOk c0 ops) (hnow : lastOffer c0 ops ≤ h.now 0)
    (hmono : ∀ i j, i ≤ j → h.now i ≤ h.now j)
    (ha : (handleOffer h (run [] ops).1 keys).2 = .ok a)
    (i : Nat) (raw : Bytes) (hi : keys[i]? = some raw) (hc : a.codes[i]? = some .accepted) :
    h.slot = true ∧ ∃ k, h.decodeKey raw = some k ∧ h.wants k = some .store ∧
      (∀ t ps, record k (run [] ops).2 = some (t, ps) → t + 120000 ≤ h.now i) ∧
      (∀ j raw', j < i → keys[j]? = some raw' → h.decodeKey raw' = some k →
        h.now j + 120000 ≤ h.now i) := by
  have hs : h.slot = true := by
    cases hs : h.slot with
    | true => rfl
    | false =>
      obtain ⟨h1, h2, h3, -, -, -⟩ := C14_refused h (run [] ops).1 keys
      by_cases hn : 64 < keys.length
      · rw [h1.2 hn] at ha; cases ha
      have hn' : keys.length ≤ 64 := by omega
      cases he : h.enr with
      | none => rw [h2.2 ⟨hn', he⟩] at ha; cases ha
      | some enr =>
        cases hv : h.version enr with
        | error e => rw [h3.2 ⟨hn', enr, e, he, hv⟩] at ha; cases ha
        | ok v =>
          obtain ⟨a', e1, -, -, e4, -⟩ := C14_no_slot h (run [] ops).1 keys v ⟨hn', enr, he, hv⟩ hs
          rw [e1] at ha
          have := Except.ok.inj ha
          subst this
          rw [e4] at hc
          have := List.mem_of_getElem? hc
          rw [List.mem_replicate] at this
          exact absurd this.2 (by decide)
  refine ⟨hs, ?_⟩
  obtain ⟨-, hall⟩ := C14_verdicts h _ keys a hs ha
  obtain ⟨k, d, c, hk, hd, hci, hm⟩ := hall i raw hi
  rw [hc] at hci
  have := Option.some.inj hci
  subst this
  have hstore : d = .store := by
    cases d
    · rfl
    · simp at hm
    · simp at hm
  subst hstore
  refine ⟨k, hk, hd, ?_⟩
  obtain ⟨v, enr, ks, ds, hn, he, hv, hkc, hdc, hcodes⟩ := handleOffer_codes hs ha
  obtain ⟨l1, k1⟩ := collect_some hkc
  obtain ⟨l2, k2⟩ := collect_some hdc
  have hz : ∀ (j : Nat) raw', keys[j]? = some raw' → h.decodeKey raw' = some k →
      (ks.zip ds)[j]? = some (k, .store) := by
    intro j raw' hj hdk
    obtain ⟨k', hki, hkd⟩ := k1 j raw' hj
    rw [hdk] at hkd
    have := Option.some.inj hkd
    subst this
    obtain ⟨d', hdi, hdw⟩ := k2 j k hki
    rw [hd] at hdw
    have := Option.some.inj hdw
    subst this
    rw [List.getElem?_zip_eq_some]; exact ⟨hki, hdi⟩
  have hinv := reach_inv c0 ops hclock
  have hT : timeout = 120000 := rfl
  rw [hcodes] at hc
  constructor
  · intro t ps hr
    rcases hinv.gone k t ps hr with ⟨e, hem, hek⟩ | hg
    · obtain ⟨t', h1, h2⟩ := hinv.entry e hem
      rw [hek, hr] at h2
      have ht : t = t' := congrArg Prod.fst (Option.some.inj h2)
      have htc := (hinv.shape k t ps hr).1
      have := verdictLoop_busy h enr 0 _ (ks.zip ds) hmono hinv.nodup k (t + timeout) (by omega)
        ⟨e, hem, hek, by omega⟩ i _ (hz i raw hi hk) hc
      rw [Nat.zero_add] at this
      omega
    · have := hmono 0 i (by omega); omega
  · intro j raw' hlt hj hdk
    have := verdictLoop_dup h enr 0 _ (ks.zip ds) hmono hinv.nodup k i j hlt _ (hz j raw' hj hdk)
      (hz i raw hi hk) hc
    rw [Nat.zero_add, Nat.zero_add] at this
    omega

/-- Conversely: with a free slot, a key that the store wants, for which no transfer is under way, and
that does not occur earlier in the offer, is accepted. -/
theorem C14_accepted_if (h : Host K P) (c0 : Nat) (ops : List (Op K P)) (keys : List Bytes)
    (a : Answer K) (hclock : ClockOk c0 ops) (hs : h.slot = true)
    (ha : (handleOffer h (run [] ops).1 keys).2 = .ok a)
    (i : Nat) (raw : Bytes) (hi : keys[i]? = some raw) (k : K) (hk : h.decodeKey raw = some k)
    (hw : h.wants k = some .store) (hr : record k (run [] ops).2 = none)
    (hfirst : ∀ j raw', j < i → keys[j]? = some raw' → h.decodeKey raw' ≠ some k) :
    a.codes[i]? = some .accepted := by
  obtain ⟨v, enr, ks, ds, hn, he, hv, hkc, hdc, hcodes⟩ := handleOffer_codes hs ha
  obtain ⟨l1, k1⟩ := collect_some hkc
  obtain ⟨l2, k2⟩ := collect_some hdc
  obtain ⟨k', hki, hkd⟩ := k1 i raw hi
  rw [hk] at hkd
  have := Option.some.inj hkd
  subst this
  obtain ⟨d', hdi, hdw⟩ := k2 i k hki
  rw [hw] at hdw
  have := Option.some.inj hdw
  subst this
  rw [hcodes]
  refine verdictLoop_free h enr 0 _ _ k i (by rw [List.getElem?_zip_eq_some]; exact ⟨hki, hdi⟩) ?_ ?_
  · intro e hem hek
    obtain ⟨t, -, h2⟩ := (reach_inv c0 ops hclock).entry e hem
    rw [hek, hr] at h2
    cases h2
  · intro j d hlt hz
    rw [List.getElem?_zip_eq_some] at hz
    have hj : j < keys.length := by
      have := (List.getElem?_eq_some_iff.1 hz.1).1; omega
    obtain ⟨k'', h1, h2⟩ := k1 j keys[j] (List.getElem?_eq_getElem hj)
    rw [hz.1] at h1
    have := Option.some.inj h1
    subst this
    exact absurd h2 (hfirst j _ hlt (List.getElem?_eq_getElem hj))

/-- A key the store wants that is not accepted has a transfer under way, or occurs earlier in the same
offer. -/
theorem C14_in_progress (h : Host K P) (c0 : Nat) (ops : List (Op K P)) (keys : List Bytes)
    (a : Answer K) (hclock : ClockOk c0 ops) (hs : h.slot = true)
    (ha : (handleOffer h (run [] ops).1 keys).2 = .ok a)
    (i : Nat) (raw : Bytes) (hi : keys[i]? = some raw) (k : K) (hk : h.decodeKey raw = some k)
    (hc : a.codes[i]? = some .inboundTransferInProgress) :
    h.wants k = some .store ∧ (record k (run [] ops).2 ≠ none ∨
      ∃ j raw', j < i ∧ keys[j]? = some raw' ∧ h.decodeKey raw' = some k) := by
  obtain ⟨-, hall⟩ := C14_verdicts h _ keys a hs ha
  obtain ⟨k', d, c, hk', hd, hci, hm⟩ := hall i raw hi
  rw [hk] at hk'
  have := Option.some.inj hk'
  subst this
  rw [hc] at hci
  have := Option.some.inj hci
  subst this
  have hstore : d = .store := by
    cases d
    · rfl
    · simp at hm
    · simp at hm
  subst hstore
  refine ⟨hd, ?_⟩
  apply Classical.byContradiction
  intro hno
  have hr : record k (run [] ops).2 = none := by
    apply Classical.byContradiction; intro h'; exact hno (.inl h')
  have := C14_accepted_if h c0 ops keys a hclock hs ha i raw hi k hk hd hr
    (fun j raw' hlt hj hdk => hno (.inr ⟨j, raw', hlt, hj, hdk⟩))
  rw [hc] at this
  cases this

/-- A connection is offered, and a task waits for the content, exactly when some key is accepted; the
task gets the accepted keys in the order of the offer. Otherwise the connection id is 0. The bytes of
the answer are the verdicts, encoded for the common version. -/
theorem C14_connection (h : Host K P) (q : List (Entry K P)) (keys : List Bytes) (a : Answer K)
    (v : Versions.Version) (hans : Answerable h keys v)
    (ha : (handleOffer h q keys).2 = .ok a) :
    ((∀ c ∈ a.codes, c ≠ .accepted) → a.connectionId = 0 ∧ a.task = none) ∧
    ((∃ c ∈ a.codes, c = .accepted) → a.connectionId = swap16 h.cid ∧
      ∃ ks, keys.map h.decodeKey = ks.map some ∧ a.task = some (selected a.codes ks)) ∧
    a.contentKeys = acceptEncode v.isV1Enabled a.codes := by
  cases hs : h.slot with
  | false =>
    obtain ⟨a', e1, e2, e3, e4, e5⟩ := C14_no_slot h q keys v hans hs
    rw [e1] at ha
    have := Except.ok.inj ha
    subst this
    refine ⟨fun _ => ⟨e2, e3⟩, ?_, e5⟩
    rintro ⟨c, hc, rfl⟩
    rw [e4, List.mem_replicate] at hc
    exact absurd hc.2 (by decide)
  | true =>
    obtain ⟨v', enr, ks, ds, hn, he, hv, hk, hd, hae⟩ := handleOffer_inv hs ha
    obtain ⟨-, enr', he', hv'⟩ := hans
    rw [he] at he'
    have := Option.some.inj he'
    subst this
    rw [hv] at hv'
    have := Except.ok.inj hv'
    subst this
    obtain ⟨l1, k1⟩ := collect_some hk
    obtain ⟨l2, -⟩ := collect_some hd
    have hks : keys.map h.decodeKey = ks.map some := by
      apply List.ext_getElem?
      intro i
      rw [List.getElem?_map, List.getElem?_map]
      cases hi : keys[i]? with
      | none =>
        rw [List.getElem?_eq_none_iff] at hi
        rw [List.getElem?_eq_none_iff.2 (by omega)]
        rfl
      | some raw =>
        obtain ⟨k, h1, h2⟩ := k1 i raw hi
        simp [h1, h2]
    have hkeys := verdictLoop_keys h enr 0 q (ks.zip ds)
    rw [mem_zip_keys l2] at hkeys
    by_cases hall : allDeclined (verdictLoop h enr 0 q (ks.zip ds)).2.1 = true
    · rw [if_pos hall] at hae
      subst hae
      refine ⟨fun _ => ⟨rfl, rfl⟩, ?_, rfl⟩
      rintro ⟨c, hc, rfl⟩
      exact absurd rfl ((allDeclined_iff _).1 hall _ hc)
    · rw [if_neg hall] at hae
      subst hae
      refine ⟨fun hn => absurd ((allDeclined_iff _).2 hn) hall, fun _ => ⟨rfl, ks, hks, ?_⟩, rfl⟩
      exact congrArg some hkeys

/-! ## C15 -/

/-- What is sent after an `ACCEPT`, whatever its bytes: nothing unless it decodes and accepts
something; otherwise exactly the contents at the accepted places of the offer, in its order. -/
theorem C15_sent (version : Except Versions.Err Versions.Version) (decodeKey : Bytes → Option K)
    (get : K → Option (Option Bytes)) (cid : UInt16) (bytes : Bytes) (r : Offer.Request)
    (recv send : UInt16) (payload : Bytes) (codes : List AcceptCode)
    (h : processAccept version decodeKey get cid bytes r = .transmit recv send payload codes) :
    (∃ v, version = .ok v ∧ acceptDecode v.isV1Enabled bytes = some codes) ∧
    .accepted ∈ codes ∧ recv = swap16 cid ∧ send = recv + 1 ∧
    ∃ items, Payload.decode payload = .ok items ∧
      match r with
      | .populated offered => items = selected codes (offered.map (·.2))
      | .offer keys => ∃ ks, keys.map decodeKey = ks.map some ∧
          (selected codes ks).map get = items.map (fun v => some (some v)) := by
  unfold processAccept at h
  cases version with
  | error e => cases h
  | ok v =>
    simp only at h
    cases hd : acceptDecode v.isV1Enabled bytes with
    | none => rw [hd] at h; cases h
    | some cs =>
      rw [hd] at h
      simp only at h
      by_cases hall : allDeclined cs = true
      · rw [if_pos hall] at h; cases h
      rw [if_neg hall] at h
      cases hi : contentItems decodeKey get cs r with
      | none => rw [hi] at h; cases h
      | some items =>
        rw [hi] at h
        simp only at h
        cases hp : Payload.encode items with
        | error e => rw [hp] at h; cases h
        | ok pl =>
          rw [hp] at h
          simp only [Sent.transmit.injEq] at h
          obtain ⟨rfl, rfl, rfl, rfl⟩ := h
          refine ⟨⟨v, rfl, hd⟩, ?_, rfl, rfl, items, C02_roundtrip items pl hp, ?_⟩
          · apply Classical.byContradiction
            intro hno
            exact hall ((allDeclined_iff cs).2 (fun c hc e => hno (e ▸ hc)))
          · cases r with
            | populated offered =>
              have := Option.some.inj hi
              rw [← this]
              exact filter_selected (fun x : Bytes × Bytes => x.2) cs offered
            | offer keys =>
              unfold contentItems at hi
              cases hk : collect decodeKey keys with
              | none => simp [hk] at hi
              | some ks =>
                simp only [hk] at hi
                refine ⟨ks, ?_, provideLoop_spec hi⟩
                obtain ⟨l1, k1⟩ := collect_some hk
                apply List.ext_getElem?
                intro i
                rw [List.getElem?_map, List.getElem?_map]
                cases hi : keys[i]? with
                | none =>
                  rw [List.getElem?_eq_none_iff] at hi
                  rw [List.getElem?_eq_none_iff.2 (by omega)]
                  rfl
                | some raw =>
                  obtain ⟨k, h1, h2⟩ := k1 i raw hi
                  simp [h1, h2]

/-- No `ACCEPT`, however malformed, makes a node send content it did not offer. -/
theorem C15_only_offered (version : Except Versions.Err Versions.Version)
    (decodeKey : Bytes → Option K) (get : K → Option (Option Bytes)) (cid : UInt16) (bytes : Bytes)
    (offered : List (Bytes × Bytes)) (recv send : UInt16) (payload : Bytes) (codes : List AcceptCode)
    (h : processAccept version decodeKey get cid bytes (.populated offered) =
      .transmit recv send payload codes) :
    ∃ items, Payload.decode payload = .ok items ∧ items.Sublist (offered.map (·.2)) := by
  obtain ⟨-, -, -, -, items, h1, h2⟩ := C15_sent version decodeKey get cid bytes _ recv send payload codes h
  simp only at h2
  exact ⟨items, h1, h2 ▸ selected_sublist _ _⟩

/-- The receiver pairs the `i`-th received value with the `i`-th accepted key, and takes nothing at
all unless there are as many values as accepted keys. -/
theorem C15_received (accepted : List K) (data : Bytes) (pairs : List (K × Bytes)) :
    decodePayload accepted data = some pairs ↔
      ∃ vals, Payload.decode data = .ok vals ∧ vals.length = accepted.length ∧
        pairs.map (·.1) = accepted ∧ pairs.map (·.2) = vals := by
  unfold decodePayload
  constructor
  · intro h
    cases hd : Payload.decode data with
    | error e => simp [hd] at h
    | ok vals =>
      simp only [hd] at h
      by_cases hl : accepted.length ≠ vals.length
      · rw [if_pos hl] at h; cases h
      · rw [if_neg hl] at h
        have hl' : accepted.length = vals.length := Classical.not_not.1 hl
        have := Option.some.inj h
        subst this
        exact ⟨vals, rfl, hl'.symm, List.map_fst_zip (by omega), List.map_snd_zip (by omega)⟩
  · rintro ⟨vals, hd, hl, h1, h2⟩
    simp only [hd]
    rw [if_neg (fun hne => hne hl.symm)]
    rw [← h1, ← h2, ← List.unzip_fst, ← List.unzip_snd, List.zip_unzip]

/-- From offer to store, with an honest peer on each side: peer A offers `items`, B answers with
`answer`; A reads the answer and sends a payload; B pairs the payload with the keys it accepted. Then
A reads exactly the places B accepted, and B ends up with exactly the accepted keys, each with the
value A offered for it, in the order of the offer. -/
theorem C15_end_to_end (h : Host K P) (q : List (Entry K P)) (items : List (Bytes × Bytes))
    (answer : Answer K) (v : Versions.Version) (get : K → Option (Option Bytes))
    (decodeKeyA : Bytes → Option K)
    (hans : Answerable h (items.map (·.1)) v)
    (ha : (handleOffer h q (items.map (·.1))).2 = .ok answer)
    (recv send : UInt16) (payload : Bytes) (codes : List AcceptCode)
    (hsent : processAccept (.ok v) decodeKeyA get answer.connectionId answer.contentKeys
      (.populated items) = .transmit recv send payload codes) :
    recv = h.cid ∧
    (∀ i : Nat, codes[i]? = some .accepted ↔ answer.codes[i]? = some .accepted) ∧
    ∃ ks, (items.map (·.1)).map h.decodeKey = ks.map some ∧
      answer.task = some (selected answer.codes ks) ∧
      decodePayload (selected answer.codes ks) payload =
        some (selected answer.codes (ks.zip (items.map (·.2)))) := by
  obtain ⟨c1, c2, c3⟩ := C14_connection h q _ answer v hans ha
  obtain ⟨⟨v', hv', hdec⟩, hacc, hrecv, -, its, hpd, hits⟩ :=
    C15_sent (.ok v) decodeKeyA get _ _ _ recv send payload codes hsent
  have := Except.ok.inj hv'
  subst this
  simp only at hits
  have hlen : answer.codes.length ≤ 64 := by
    have hl : answer.codes.length = (items.map (·.1)).length := by
      cases hs : h.slot with
      | false =>
        obtain ⟨a', e1, -, -, e4, -⟩ := C14_no_slot h q _ v hans hs
        rw [e1] at ha
        have := Except.ok.inj ha
        subst this
        rw [e4, List.length_replicate]
      | true => exact (C14_verdicts h q _ answer hs ha).1
    have := hans.1
    omega
  -- what A reads
  have hread : ∃ f : AcceptCode → AcceptCode, (∀ c, f c = .accepted ↔ c = .accepted) ∧
      codes = answer.codes.map f := by
    rw [c3] at hdec
    cases hb : v.isV1Enabled with
    | true =>
      rw [hb, C03_v1_roundtrip _ hlen] at hdec
      exact ⟨id, fun c => Iff.rfl, by simpa using (Option.some.inj hdec).symm⟩
    | false =>
      rw [hb, C03_v0_roundtrip _ hlen] at hdec
      refine ⟨_, ?_, (Option.some.inj hdec).symm⟩
      intro c
      by_cases hc : c = .accepted
      · simp [hc]
      · simp [hc]
  obtain ⟨f, hf, hcodes⟩ := hread
  have hmem : ∃ c ∈ answer.codes, c = .accepted := by
    rw [hcodes, List.mem_map] at hacc
    obtain ⟨c, hc, hfc⟩ := hacc
    exact ⟨c, hc, (hf c).1 hfc⟩
  obtain ⟨hcid, ks, hks, htask⟩ := c2 hmem
  refine ⟨by rw [hrecv, hcid, swap16_swap16], fun i => ?_, ks, hks, htask, ?_⟩
  · rw [hcodes, List.getElem?_map]
    cases answer.codes[i]? with
    | none => simp
    | some c => simp [hf c]
  · have hlk : ks.length = (items.map (·.2)).length := by
      have := congrArg List.length hks
      simpa using this.symm
    obtain ⟨hz, hl⟩ := selected_zip answer.codes ks (items.map (·.2)) hlk
    unfold decodePayload
    rw [hpd]
    simp only
    rw [hits, hcodes, selected_codes f hf, if_neg (fun hne => hne hl), hz]

/-! ## Concrete cases -/

/-- Keys are single bytes; the store wants even ones, has the ones above 100, the rest is too far. -/
def offerHost : Host UInt8 Nat where
  enr := some 7
  version := fun _ => .ok .v1
  slot := true
  decodeKey := fun b => b.head?
  wants := fun k => if 100 < k then some .alreadyStored else if k % 2 = 0 then some .store
    else some .notWithinRadius
  now := fun _ => 1000
  pick := fun _ => 0
  cid := 0x1234

/-- Accepted, too far, stored already, accepted, repeated in the same offer. -/
example : (handleOffer offerHost [] [[2], [3], [102], [4], [2]]).2 =
    .ok ⟨0x3412, [0, 3, 2, 0, 5],
      [.accepted, .notWithinRadius, .alreadyStored, .accepted, .inboundTransferInProgress],
      some [2, 4]⟩ := by decide

/-- The same with the transfer of 2 under way from peer 9 since instant 500. -/
example : (handleOffer offerHost (run [] [.add 500 0 2 9]).1 [[2], [4]]).2 =
    .ok ⟨0x3412, [5, 0], [.inboundTransferInProgress, .accepted], some [4]⟩ := by decide

/-- And without a slot. -/
example : (handleOffer { offerHost with slot := false } [] [[2], []]).2 =
    .ok ⟨0, [4, 4], [.rateLimited, .rateLimited], none⟩ := by decide

/-- One key that does not decode refuses the whole offer. -/
example : (handleOffer offerHost [] [[2], []]).2 = .error .badKey := by decide

/-- A whole exchange: offer of 2, 3 and 4; 2 and 4 are accepted; their contents arrive. -/
example : processAccept (.ok .v1) (fun b => b.head?) (fun _ : UInt8 => none) 0x3412 [0, 3, 0]
      (.populated [([2], [20, 21]), ([3], [30]), ([4], [40])]) =
    .transmit 0x1234 0x1235 [2, 20, 21, 1, 40] [.accepted, .notWithinRadius, .accepted] := by
  decide +kernel

example : decodePayload ([2, 4] : List UInt8) [2, 20, 21, 1, 40] = some [(2, [20, 21]), (4, [40])] := by
  decide +kernel

/-- A payload with one value too few is refused as a whole. -/
example : decodePayload ([2, 4] : List UInt8) [2, 20, 21] = none := by decide +kernel

end Verif.Props
