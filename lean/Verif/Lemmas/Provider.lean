import Verif.Props.ProviderSpec
import Verif.Lemmas.HeadGenNames
import Verif.Lemmas.DataDir

/-! # Lemmas: the clients of execution and consensus nodes -/

namespace Verif.Provider
open Verif.Props.ProviderSpec
open Verif.E2store (Res)

theorem failed_succ (r : Request) (n : Nat) : failed r (n + 1) = [.send r] ++ [.backoff] ++ failed r n := by
  simp [failed, List.replicate_succ]

theorem attempts_asked (w : World) (r : Request) : ∀ (k : Nat) (log : List Act), ∃ n, n ≤ k ∧
    (attempts w r k log).1 = log ++ (failed r n ++ [.send r]) ∧
    (attempts w r k log).2 = w (log ++ (failed r n ++ [.send r])) ∧
    (∀ j, j < n → (w (log ++ failed r j ++ [.send r])).retry = true) ∧
    (n < k → (attempts w r k log).2.retry = false)
  | 0, log => ⟨0, by omega, by simp [attempts, failed], by simp [attempts, failed], by omega, by omega⟩
  | k + 1, log => by
    by_cases hr : (w (log ++ [.send r])).retry = true
    · obtain ⟨n, h1, h2, h3, h4, h5⟩ := attempts_asked w r k (log ++ [.send r] ++ [.backoff])
      have e : attempts w r (k + 1) log = attempts w r k (log ++ [.send r] ++ [.backoff]) := by
        rw [attempts, if_pos hr]
      refine ⟨n + 1, by omega, ?_, ?_, ?_, ?_⟩
      · rw [e, h2, failed_succ]; simp
      · rw [e, h3, failed_succ]; simp
      · intro j hj
        cases j with
        | zero => simpa [failed] using hr
        | succ j => have := h4 j (by omega); rw [failed_succ]; simpa using this
      · intro hn; rw [e]; exact h5 (by omega)
    · have e : attempts w r (k + 1) log = (log ++ [.send r], w (log ++ [.send r])) := by
        rw [attempts, if_neg hr]
      exact ⟨0, by omega, by rw [e]; simp [failed], by rw [e]; simp [failed], by omega, fun _ => by
        rw [e]; simpa using hr⟩

theorem execute_asked (w : World) (r : Request) (log : List Act) : ∃ extra a, Asked w log r extra a ∧
    execute w r log = (log ++ extra, a.response) := by
  obtain ⟨n, h1, h2, h3, h4, h5⟩ := attempts_asked w r 3 log
  refine ⟨failed r n ++ [.send r], (attempts w r 3 log).2, ⟨n, h1, rfl, h3, h4, h5⟩, ?_⟩
  simp only [execute, h2]

theorem sendTo_asked {α : Type} (w : World) (parse : Bytes → Option α) (c : Client) (b : Body) (log : List Act) :
    ∃ extra a, Asked w log (c.post b) extra a ∧ sendTo w parse c b log = (log ++ extra, readJson parse a) := by
  obtain ⟨extra, a, h, e⟩ := execute_asked w (c.post b) log
  refine ⟨extra, a, h, ?_⟩
  simp only [sendTo, e, readJson]
  rcases a with ⟨_, _ | ⟨_, _ | body⟩⟩ <;> rfl

theorem askOne_asked {T : Type} (w : World) (codec : Codec T) (c : Client) (q : Question) (log : List Act) :
    ∃ extra a, Asked w log (c.ask q) extra a ∧ askOne w codec c q log = (log ++ extra, readAs codec q.isList a) := by
  obtain ⟨extra, a, h, e⟩ := execute_asked w (c.ask q) log
  refine ⟨extra, a, h, ?_⟩
  have hne : sszType ≠ jsonType := by decide
  have e1 : (chars% "application/json") = jsonType := rfl
  have e2 : (chars% "application/octet-stream") = sszType := rfl
  simp only [askOne, e, readAs, e1, e2]
  generalize q.isList = l
  rcases a with ⟨_, _ | ⟨_ | t, _ | body⟩⟩ <;> try rfl
  · simp only [Option.bind_some, decode, Option.bind_none]
    split
    · split <;> rfl
    · split <;> rfl
  · simp only [Option.bind_some, decode]
    by_cases h1 : t = sszType
    · subst h1
      cases l <;> simp [hne]
    · by_cases h2 : t = jsonType <;> simp [h1, h2, Ne.symm hne]

theorem try_firstOf {α : Type} (x : Exec) (env : Env) (w : World) (parse : Bytes → Option α) (b : Body) (log : List Act)
    (p f : Client) (hp : newClient env x.primary x.timeout .json = some p)
    (hf : newClient env x.fallback x.timeout .json = some f) :
    FirstOf w (readJson parse) (p.post b) (f.post b) [.pause 5] log (x.try env w parse b log).1 (x.try env w parse b log).2 := by
  obtain ⟨ep, ap, h1, e1⟩ := sendTo_asked w parse p b log
  refine ⟨ep, ap, h1, ?_⟩
  cases hr : readJson parse ap with
  | some v =>
    rw [hr] at e1
    have : x.try env w parse b log = (log ++ ep, some v) := by simp only [Exec.try, hp, e1]
    rw [this]
    exact .inl ⟨v, rfl, rfl, rfl⟩
  | none =>
    rw [hr] at e1
    obtain ⟨ef, af, h2, e2⟩ := sendTo_asked w parse f b (log ++ ep ++ [.pause 5])
    have : x.try env w parse b log = (log ++ ep ++ [.pause 5] ++ ef, readJson parse af) := by
      simp only [Exec.try, hp, hf, e1]
      exact e2
    rw [this]
    exact .inr ⟨rfl, ef, af, h2, rfl, rfl⟩

theorem ask_firstOf {T : Type} (x : Cons) (w : World) (codec : Codec T) (q : Question) (log : List Act) :
    FirstOf w (readAs codec q.isList) (x.primary.ask q) (x.fallback.ask q) [] log (x.ask w codec q log).1
      (x.ask w codec q log).2 := by
  obtain ⟨ep, ap, h1, e1⟩ := askOne_asked w codec x.primary q log
  refine ⟨ep, ap, h1, ?_⟩
  cases hr : readAs codec q.isList ap with
  | some v =>
    rw [hr] at e1
    have : x.ask w codec q log = (log ++ ep, some v) := by simp only [Cons.ask, e1]
    rw [this]
    exact .inl ⟨v, rfl, rfl, rfl⟩
  | none =>
    rw [hr] at e1
    obtain ⟨ef, af, h2, e2⟩ := askOne_asked w codec x.fallback q (log ++ ep)
    have : x.ask w codec q log = (log ++ ep ++ ef, readAs codec q.isList af) := by
      simp only [Cons.ask, e1]
      exact e2
    rw [this]
    exact .inr ⟨rfl, ef, af, by simpa using h2, rfl, by simp⟩

theorem sends_append (a b : List Act) : sends (a ++ b) = sends a ++ sends b := by
  induction a with
  | nil => rfl
  | cons x a ih => cases x <;> simp [sends, ih]

theorem sends_failed (r : Request) (n : Nat) : sends (failed r n) = List.replicate n r := by
  induction n with
  | zero => rfl
  | succ n ih => rw [failed_succ, sends_append, sends_append, ih]; simp [sends, List.replicate_succ]

theorem asked_sends {w : World} {before : List Act} {r : Request} {extra : List Act} {a : Answer}
    (h : Asked w before r extra a) : ∃ n, 1 ≤ n ∧ n ≤ 4 ∧ sends extra = List.replicate n r := by
  obtain ⟨n, h1, rfl, _⟩ := h
  refine ⟨n + 1, by omega, by omega, ?_⟩
  rw [sends_append, sends_failed, List.replicate_succ']
  rfl

theorem firstOf_sends {α : Type} {w : World} {rd : Answer → Option α} {rp rf : Request} {wait before after : List Act}
    {out : Option α} (hw : sends wait = []) (h : FirstOf w rd rp rf wait before after out) :
    ∃ n m, 1 ≤ n ∧ n ≤ 4 ∧ m ≤ 4 ∧ sends after = sends before ++ List.replicate n rp ++ List.replicate m rf := by
  obtain ⟨ep, ap, h1, h | h⟩ := h
  · obtain ⟨_, _, _, rfl⟩ := h
    obtain ⟨n, a1, a2, a3⟩ := asked_sends h1
    exact ⟨n, 0, a1, a2, by omega, by rw [sends_append, a3]; simp⟩
  · obtain ⟨_, ef, af, h2, _, rfl⟩ := h
    obtain ⟨n, a1, a2, a3⟩ := asked_sends h1
    obtain ⟨m, b1, b2, b3⟩ := asked_sends h2
    exact ⟨n, m, a1, a2, b2, by rw [sends_append, sends_append, sends_append, a3, b3, hw]; simp⟩

/-! ## Receipts -/

variable {V Rc Blk : Type}

theorem receiptsLoop_spec (lib : Lib V Rc Blk) (x : Exec) (env : Env) (w : World) (number : Nat) :
    ∀ (k : Nat) (log : List Act),
    (∃ after, NullRounds lib x env w (askReceipts number 1) k log after ∧
      receiptsLoop lib x env w number k log = (after, .err)) ∨
    ∃ n mid, n < k ∧ NullRounds lib x env w (askReceipts number 1) n log mid ∧
      (receiptsLoop lib x env w number k log).1 = (x.try env w lib.parse (.one (askReceipts number 1)) mid).1 ∧
      ((receiptsLoop lib x env w number k log).2 = .err ∧
          (∀ v r, (x.try env w lib.parse (.one (askReceipts number 1)) mid).2 = some v → Carries lib v r →
            lib.receipts r = none) ∧
          (∀ v, (x.try env w lib.parse (.one (askReceipts number 1)) mid).2 = some v → ¬ SaysNull lib v) ∨
        ∃ v r rc, (x.try env w lib.parse (.one (askReceipts number 1)) mid).2 = some v ∧ Carries lib v r ∧
          lib.receipts r = some rc ∧ (receiptsLoop lib x env w number k log).2 = .ok rc)
  | 0, log => .inl ⟨log, rfl, rfl⟩
  | k + 1, log => by
    have ec : receiptsCall number 1 = askReceipts number 1 := rfl
    rw [receiptsLoop, ec]
    cases ht : x.try env w lib.parse (.one (askReceipts number 1)) log with
    | mk mid o =>
    cases o with
    | none =>
      exact .inr ⟨0, log, by omega, rfl, by simp [ht], .inl ⟨rfl, by simp [ht], by simp [ht]⟩⟩
    | some v =>
      simp only []
      cases hs : lib.shape v with
      | null =>
        have hm : lib.member v = none := by simp [Lib.member, hs]
        simp only [hm]
        refine .inr ⟨0, log, by omega, rfl, by simp [ht], .inl ⟨by trivial, ?_, ?_⟩⟩
        · intro v' r hv hc; rw [ht] at hv; cases hv; rw [hc.1] at hs; simp at hs
        · rintro v' hv ⟨r, h1, h2⟩; rw [ht] at hv; cases hv; rw [h1] at hs; simp at hs
      | other =>
        have hm : lib.member v = none := by simp [Lib.member, hs]
        simp only [hm]
        refine .inr ⟨0, log, by omega, rfl, by simp [ht], .inl ⟨by trivial, ?_, ?_⟩⟩
        · intro v' r hv hc; rw [ht] at hv; cases hv; rw [hc.1] at hs; simp at hs
        · rintro v' hv ⟨r, h1, h2⟩; rw [ht] at hv; cases hv; rw [h1] at hs; simp at hs
      | object res =>
        have hm : lib.member v = res := by simp [Lib.member, hs]
        simp only [hm]
        cases res with
        | none =>
          refine .inr ⟨0, log, by omega, rfl, by simp [ht], .inl ⟨rfl, ?_, ?_⟩⟩
          · intro v' r hv hc; rw [ht] at hv; cases hv; rw [hc.1] at hs; simp at hs
          · rintro v' hv ⟨r, h1, h2⟩; rw [ht] at hv; cases hv; rw [h1] at hs; simp at hs
        | some r =>
          by_cases hn : lib.isNull r = true
          · have hnull : lib.shape r = .null := by
              unfold Lib.isNull at hn
              split at hn
              · assumption
              · exact absurd hn (by decide)
            have hsn : SaysNull lib v := ⟨r, hs, hnull⟩
            simp only [hn, if_true]
            rcases receiptsLoop_spec lib x env w number k (mid ++ [.pause receiptsRetryAfter]) with h | h
            · obtain ⟨after, h1, h2⟩ := h
              exact .inl ⟨after, ⟨mid, v, ht, hsn, h1⟩, h2⟩
            · obtain ⟨n, mid', h1, h2, h3⟩ := h
              exact .inr ⟨n + 1, mid', by omega, ⟨mid, v, ht, hsn, h2⟩, h3⟩
          · have hc : Carries lib v r := ⟨hs, by rintro y h1 rfl; exact hn (by simp [Lib.isNull, h1])⟩
            simp only [hn]
            refine .inr ⟨0, log, by omega, rfl, by simp [ht], ?_⟩
            cases hrc : lib.receipts r with
            | none =>
              refine .inl ⟨by simp [Lib.receiptsOf, hs, hrc], ?_, ?_⟩
              · intro v' r' hv hc'; rw [ht] at hv; cases hv; have := hc'.1; rw [hs] at this; cases this; exact hrc
              · rintro v' hv ⟨r', h1, h2⟩; rw [ht] at hv; cases hv; rw [hs] at h1; cases h1; exact hc.2 _ h2 rfl
            | some rc =>
              exact .inr ⟨v, r, rc, by simp [ht], hc, hrc, by simp [Lib.receiptsOf, hs, hrc]⟩

/-! ## Batches -/

theorem mem_put {α : Type} (m : List (Nat × α)) (k : Nat) (v : α) (e : Nat × α) :
    e ∈ put m k v ↔ e = (k, v) ∨ (e ∈ m ∧ e.1 ≠ k) := by
  simp [put]

/-- What pairing adds to the map: each number gets the last value at one of its positions. -/
theorem pairUp_spec (lib : Lib V Rc Blk) : ∀ (vs : List V) (ns : List Nat) (m m' : List (Nat × Rc)),
    pairUp lib vs ns m = .ok m' → ns.Nodup → (∀ n, n ∈ ns → ∀ rc, (n, rc) ∉ m) → ∀ n rc, (n, rc) ∈ m' ↔
      (n, rc) ∈ m ∨ ∃ (i : Nat) (v : V), ns[i]? = some n ∧ vs[i]? = some v ∧ lib.receiptsOf v = .ok rc
  | [], ns, m, m', h, _, _, n, rc => by
    simp only [pairUp, Res.ok.injEq] at h; subst h; simp
  | v :: vs, [], m, m', h, _, _, n, rc => by
    simp only [pairUp, Res.ok.injEq] at h; subst h; simp
  | v :: vs, a :: ns, m, m', h, hd, hf, n, rc => by
    simp only [pairUp] at h
    cases hv : lib.receiptsOf v with
    | err => rw [hv] at h; simp at h
    | panic => rw [hv] at h; simp at h
    | ok r =>
      rw [hv] at h
      simp only [] at h
      obtain ⟨hd1, hd2⟩ := List.nodup_cons.mp hd
      have ih := pairUp_spec lib vs ns (put m a r) m' h hd2 (by
        intro k hk rc' hm
        rw [mem_put] at hm
        rcases hm with hm | hm
        · cases hm; exact hd1 hk
        · exact hf k (List.mem_cons_of_mem _ hk) rc' hm.1) n rc
      rw [ih, mem_put]
      constructor
      · rintro ((h1 | ⟨h1, _⟩) | ⟨i, v', h1, h2, h3⟩)
        · cases h1; exact .inr ⟨0, v, rfl, rfl, hv⟩
        · exact .inl h1
        · exact .inr ⟨i + 1, v', h1, h2, h3⟩
      · rintro (h1 | ⟨i, v', h1, h2, h3⟩)
        · refine .inl (.inr ⟨h1, ?_⟩)
          intro h2; subst h2
          exact hf _ (List.mem_cons_self ..) rc h1
        · cases i with
          | zero =>
            simp only [List.getElem?_cons_zero, Option.some.injEq] at h1 h2
            subst h1; subst h2
            rw [hv] at h3; cases h3
            exact .inl (.inl rfl)
          | succ i => exact .inr ⟨i, v', h1, h2, h3⟩

theorem pairUp_ok (lib : Lib V Rc Blk) : ∀ (vs : List V) (ns : List Nat) (m m' : List (Nat × Rc)),
    pairUp lib vs ns m = .ok m' → ∀ (i : Nat) (v : V), i < ns.length → vs[i]? = some v → ∃ rc, lib.receiptsOf v = .ok rc
  | [], _, _, _, _ => by simp
  | _ :: _, [], _, _, _ => by simp
  | v :: vs, a :: ns, m, m', h => by
    simp only [pairUp] at h
    cases hv : lib.receiptsOf v with
    | err => rw [hv] at h; simp at h
    | panic => rw [hv] at h; simp at h
    | ok r =>
      rw [hv] at h
      intro i v' hi hv'
      cases i with
      | zero => simp only [List.getElem?_cons_zero, Option.some.injEq] at hv'; subst hv'; exact ⟨r, hv⟩
      | succ i => exact pairUp_ok lib vs ns _ m' h i v' (by simpa using hi) hv'

theorem pairUp_total (lib : Lib V Rc Blk) : ∀ (vs : List V) (ns : List Nat) (m : List (Nat × Rc)),
    (∀ v, v ∈ vs → ∃ rc, lib.receiptsOf v = .ok rc) → ∃ m', pairUp lib vs ns m = .ok m'
  | [], _, m, _ => ⟨m, by simp [pairUp]⟩
  | _ :: _, [], m, _ => ⟨m, by simp [pairUp]⟩
  | v :: vs, a :: ns, m, h => by
    obtain ⟨rc, hv⟩ := h v (List.mem_cons_self ..)
    obtain ⟨m', e⟩ := pairUp_total lib vs ns (put m a rc) fun v' hv' => h v' (List.mem_cons_of_mem _ hv')
    exact ⟨m', by simp only [pairUp, hv, e]⟩

/-- The calls of the loop, and what it returns. -/
theorem rangeLoop_spec (lib : Lib V Rc Blk) (x : Exec) (env : Env) (w : World) :
    ∀ (k : Nat) (calls : List (Nat × Call)) (m : List (Nat × Rc)) (log : List Act) (m' : List (Nat × Rc)),
    calls.length ≤ k → (rangeLoop lib x env w k calls m log).2 = .ok m' → (calls.map (·.1)).Nodup →
    (∀ n, n ∈ calls.map (·.1) → ∀ rc, (n, rc) ∉ m) →
    ∃ answers, Batches x env w lib.parseList (calls.map (·.2)) answers log (rangeLoop lib x env w k calls m log).1 ∧
      (∀ n rc, (n, rc) ∈ m' ↔ (n, rc) ∈ m ∨ ∃ (i : Nat) (vs : List V) (v : V), (calls.map (·.1))[i]? = some n ∧
        answers[i / 10]? = some vs ∧ vs[i % 10]? = some v ∧ lib.receiptsOf v = .ok rc) ∧
      ∀ (i : Nat) (vs : List V) (v : V), i < calls.length → answers[i / 10]? = some vs → vs[i % 10]? = some v →
        ∃ rc, lib.receiptsOf v = .ok rc
  | 0, calls, m, log, m', hk, h, _, _ => by
    have : calls = [] := List.length_eq_zero_iff.mp (by omega)
    subst this
    simp only [rangeLoop, Res.ok.injEq] at h
    subst h
    exact ⟨[], ⟨rfl, rfl⟩, by simp, by simp⟩
  | k + 1, calls, m, log, m', hk, h, hd, hf => by
    cases hc : calls with
    | nil =>
      subst hc
      simp only [rangeLoop, List.isEmpty_nil, if_true, Res.ok.injEq] at h
      subst h
      exact ⟨[], ⟨rfl, by simp [rangeLoop]⟩, by simp, by simp⟩
    | cons c0 cs0 =>
      rw [← hc]
      have hne : calls.isEmpty = false := by rw [hc]; rfl
      rw [rangeLoop, hne] at h ⊢
      simp only [Bool.false_eq_true, if_false] at h ⊢
      cases ht : x.try env w lib.parseList (.batch ((calls.take batchLimit).map (·.2))) log with
      | mk mid o =>
      rw [ht] at h
      cases o with
      | none => simp at h
      | some vs =>
        simp only [] at h ⊢
        cases hp : pairUp lib vs ((calls.take batchLimit).map (·.1)) m with
        | err => rw [hp] at h; simp at h
        | panic => rw [hp] at h; simp at h
        | ok m1 =>
          rw [hp] at h
          simp only [] at h ⊢
          have hsplit : calls.map (·.1) = (calls.take 10).map (·.1) ++ (calls.drop 10).map (·.1) := by
            rw [← List.map_append, List.take_append_drop]
          have hd' := hd
          rw [hsplit] at hd'
          obtain ⟨hd1, hd2, hd3⟩ := List.nodup_append.mp hd'
          have hp1 := pairUp_spec lib vs _ m m1 hp hd1 (by
            intro n hn rc; exact hf n (by rw [hsplit]; exact List.mem_append_left _ hn) rc)
          have hlen : (calls.drop batchLimit).length ≤ k := by
            rw [List.length_drop, show batchLimit = 10 from rfl]
            have : 0 < calls.length := by rw [hc]; simp
            omega
          obtain ⟨answers, b1, b2, b3⟩ := rangeLoop_spec lib x env w k (calls.drop batchLimit) m1 mid m' hlen h hd2 (by
            intro n hn rc hm
            rcases (hp1 n rc).mp hm with h1 | ⟨i, v, h1, _⟩
            · exact hf n (by rw [hsplit]; exact List.mem_append_right _ hn) rc h1
            · exact hd3 n (List.mem_of_getElem? h1) n hn rfl)
          have htl : ((calls.take batchLimit).map (·.1)).length = min 10 calls.length := by simp [batchLimit]
          refine ⟨vs :: answers, ⟨by rw [hc]; simp, mid, ?_, ?_⟩, ?_, ?_⟩
          · rw [← List.map_take]; exact ht
          · rw [← List.map_drop]; exact b1
          · intro n rc
            rw [b2 n rc, hp1 n rc]
            constructor
            · rintro ((h1 | ⟨i, v, h1, h2, h3⟩) | ⟨i, vs', v, h1, h2, h3, h4⟩)
              · exact .inl h1
              · have hi : i < 10 := by
                  have := (List.getElem?_eq_some_iff.mp h1).1; rw [htl] at this; omega
                refine .inr ⟨i, vs, v, ?_, ?_, ?_, h3⟩
                · rw [List.map_take, List.getElem?_take_of_lt (by simpa [batchLimit] using hi)] at h1; exact h1
                · rw [Nat.div_eq_of_lt hi]; rfl
                · rw [Nat.mod_eq_of_lt hi]; exact h2
              · refine .inr ⟨i + 10, vs', v, ?_, ?_, ?_, h4⟩
                · rw [List.map_drop, List.getElem?_drop] at h1; rw [Nat.add_comm]; exact h1
                · rw [Nat.add_div_right _ (by omega)]; exact h2
                · rw [Nat.add_mod_right]; exact h3
            · rintro (h1 | ⟨i, vs', v, h1, h2, h3, h4⟩)
              · exact .inl (.inl h1)
              · by_cases hi : i < 10
                · rw [Nat.div_eq_of_lt hi] at h2
                  rw [Nat.mod_eq_of_lt hi] at h3
                  simp only [List.getElem?_cons_zero, Option.some.injEq] at h2
                  subst h2
                  refine .inl (.inr ⟨i, v, ?_, h3, h4⟩)
                  rw [List.map_take, List.getElem?_take_of_lt (by simpa [batchLimit] using hi)]; exact h1
                · refine .inr ⟨i - 10, vs', v, ?_, ?_, ?_, h4⟩
                  · rw [List.map_drop, List.getElem?_drop, show batchLimit = 10 from rfl,
                      show 10 + (i - 10) = i by omega]
                    exact h1
                  · have : i / 10 = (i - 10) / 10 + 1 := by omega
                    rw [this] at h2; exact h2
                  · have : i % 10 = (i - 10) % 10 := by omega
                    rw [this] at h3; exact h3
          · intro i vs' v hi h2 h3
            by_cases hi' : i < 10
            · rw [Nat.div_eq_of_lt hi'] at h2
              rw [Nat.mod_eq_of_lt hi'] at h3
              simp only [List.getElem?_cons_zero, Option.some.injEq] at h2
              subst h2
              exact pairUp_ok lib vs _ m m1 hp i v (by rw [htl]; omega) h3
            · have e1 : i / 10 = (i - 10) / 10 + 1 := by omega
              have e2 : i % 10 = (i - 10) % 10 := by omega
              rw [e1] at h2
              rw [e2] at h3
              exact b3 (i - 10) vs' v (by rw [List.length_drop, show batchLimit = 10 from rfl]; omega) h2 h3

theorem rangeCalls_fst (numbers : List Nat) : (rangeCalls numbers).map (·.1) = numbers := by
  simp [rangeCalls, List.map_map, Function.comp_def]

theorem rangeCalls_snd (numbers : List Nat) : (rangeCalls numbers).map (·.2) = rangeAsked numbers := by
  simp only [rangeCalls, rangeAsked, List.map_map]
  rfl

/-! ## Texts -/

theorem digitUpper_spec (d : Nat) (h : d < 16) :
    (if (Hex.digitUpper d).toNat ≤ 57 then (Hex.digitUpper d).toNat - 48 else (Hex.digitUpper d).toNat - 55) = d ∧
    (Hex.digitUpper d = '0' → d = 0) := by
  have : ∀ d : Fin 16, (if (Hex.digitUpper d.val).toNat ≤ 57 then (Hex.digitUpper d.val).toNat - 48
      else (Hex.digitUpper d.val).toNat - 55) = d.val ∧ (Hex.digitUpper d.val = '0' → d.val = 0) := by decide
  exact this ⟨d, h⟩

theorem hexDigits_spec (n : Nat) : hexValue (hexDigits n) = n ∧ 0 < (hexDigits n).length ∧
    ((hexDigits n).head? = some '0' → n = 0) := by
  induction n using Nat.strongRecOn with
  | ind n ih =>
    rw [hexDigits]
    split
    · next h =>
      obtain ⟨h1, h2⟩ := digitUpper_spec n h
      refine ⟨?_, by simp, by simpa using h2⟩
      simp only [hexValue, List.foldl_cons, List.foldl_nil]
      omega
    · next h =>
      obtain ⟨i1, i2, i3⟩ := ih (n / 16) (by omega)
      obtain ⟨h1, h2⟩ := digitUpper_spec (n % 16) (by omega)
      refine ⟨?_, by simp, ?_⟩
      · simp only [hexValue, List.foldl_append, List.foldl_cons, List.foldl_nil] at i1 ⊢
        rw [i1, h1]; omega
      · intro h0
        have hh : (hexDigits (n / 16) ++ [Hex.digitUpper (n % 16)]).head? = (hexDigits (n / 16)).head? := by
          cases hd : hexDigits (n / 16) with
          | nil => rw [hd] at i2; simp at i2
          | cons a l => rfl
        rw [hh] at h0
        have := i3 h0
        omega

theorem contains_prefix (pat s t : List Char) (h : t = s ++ pat) (hp : pat ≠ []) : contains t pat = true := by
  subst h
  induction s with
  | nil =>
    cases pat with
    | nil => exact absurd rfl hp
    | cons a l => simp [contains]
  | cons c s ih => simp [contains, ih]

theorem contains_spec : ∀ (s pat : List Char), contains s pat = true → ∃ a b, s = a ++ pat ++ b
  | [], pat, h => ⟨[], [], by simp only [contains, List.isEmpty_iff] at h; simp [h]⟩
  | c :: cs, pat, h => by
    simp only [contains, Bool.or_eq_true] at h
    rcases h with h | h
    · obtain ⟨b, hb⟩ := List.isPrefixOf_iff_prefix.mp h
      exact ⟨[], b, by simpa using hb.symm⟩
    · obtain ⟨a, b, h⟩ := contains_spec cs pat h
      exact ⟨c :: a, b, by simp [h]⟩

end Verif.Provider
