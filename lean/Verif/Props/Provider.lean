import Verif.Lemmas.ProviderText

/-! # C88: the clients of execution and consensus nodes -/

namespace Verif.Props
open Verif Verif.Provider Verif.Props.ProviderSpec
open Verif.E2store (Res)

theorem provider_headerValue {s : List Char} (h : ∀ c ∈ s, (32 ≤ c.toNat ∧ c.toNat < 127) ∨ c = '\t') :
    headerValue s = some s := by
  unfold headerValue
  rw [if_pos]
  rw [List.all_eq_true]
  intro c hc
  rcases h c hc with h | h <;> simp [h]

theorem provider_valid {env : Env} {u : Url} (h : Valid env u) (t : Nat) (k : Kind) :
    ∃ c, newClient env u t k = some c ∧ c.base = u ∧ c.timeout = t := by
  obtain ⟨⟨host, hh⟩, hv⟩ := h
  have hnull : ∀ c ∈ (chars% "null"), (32 ≤ c.toNat ∧ c.toNat < 127) ∨ c = '\t' := by decide
  have h1 : headerValue (env.clientId.getD (chars% "null")) = some (env.clientId.getD (chars% "null")) := by
    cases hc : env.clientId with
    | none => exact provider_headerValue hnull
    | some s => exact provider_headerValue (hv s (.inl hc))
  have h2 : headerValue (env.clientSecret.getD (chars% "null")) = some (env.clientSecret.getD (chars% "null")) := by
    cases hc : env.clientSecret with
    | none => exact provider_headerValue hnull
    | some s => exact provider_headerValue (hv s (.inr hc))
  have : ∃ auth, authHeaders env u = some auth := by
    simp only [authHeaders, hh, h1, h2]
    split
    · exact ⟨_, rfl⟩
    · exact ⟨_, rfl⟩
  obtain ⟨auth, ha⟩ := this
  exact ⟨_, by simp only [newClient, ha]; rfl, rfl, rfl⟩

/-- Every request to execution nodes goes to the primary provider first: once, or up to four times while the failure looks
temporary. If its last answer can be read, that is the answer. If not, five seconds later the fallback gets the same
request in the same way, and what can be read from its last answer is the answer. Nobody else is asked. -/
theorem C88_request {α : Type} (x : Exec) (env : Env) (w : World) (parse : Bytes → Option α) (b : Body) (log : List Act)
    (hp : Valid env x.primary) (hf : Valid env x.fallback) :
    ∃ h1 h2, FirstOf w (readJson parse) ⟨x.primary, h1, x.timeout, b⟩ ⟨x.fallback, h2, x.timeout, b⟩ [.pause 5] log
      (x.try env w parse b log).1 (x.try env w parse b log).2 := by
  obtain ⟨p, e1, e2, e3⟩ := provider_valid hp x.timeout .json
  obtain ⟨f, e4, e5, e6⟩ := provider_valid hf x.timeout .json
  refine ⟨p.headers, f.headers, ?_⟩
  have := try_firstOf x env w parse b log p f e1 e4
  simp only [Client.post, Url.join, e2, e3, e5, e6] at this
  exact this

/-- The same for consensus nodes, where the fallback is asked at once. Every provider is asked at its own host, for exactly
what was asked for; states and blocks may take 60 seconds. -/
theorem C88_ask {T : Type} (x : Cons) (w : World) (codec : Codec T) (q : Question) (log : List Act) :
    ∃ rp rf, FirstOf w (readAs codec q.isList) rp rf [] log (x.ask w codec q log).1 (x.ask w codec q log).2 ∧
      rp.url.host = x.primary.base.host ∧ rf.url.host = x.fallback.base.host ∧
      target rp.url = q.endpoint ∧ target rf.url = q.endpoint ∧ rp.body = .get ∧ rf.body = .get ∧
      (rp.timeout = x.primary.timeout ∧ rf.timeout = x.fallback.timeout ∨
        (∃ id, q = .state id ∨ q = .block id) ∧ rp.timeout = 60 ∧ rf.timeout = 60) := by
  have ht : ∀ l : List Char, (match (splitQuery l).2 with
      | none => (splitQuery l).1
      | some q => (splitQuery l).1 ++ '?' :: q) = l := by
    intro l
    induction l with
    | nil => rfl
    | cons c cs ih =>
      by_cases h : c = '?'
      · subst h; rfl
      · have e : splitQuery (c :: cs) = (c :: (splitQuery cs).1, (splitQuery cs).2) := by rw [splitQuery, if_neg h]
        rw [e]
        simp only []
        cases hs : (splitQuery cs).2 with
        | none => rw [hs] at ih; simp only [] at ih ⊢; rw [ih]
        | some q => rw [hs] at ih; simp only [] at ih ⊢; rw [List.cons_append, ih]
  have hu : ∀ (u : Url) (q : Question), (u.join q.endpoint).host = u.host ∧ target (u.join q.endpoint) = q.endpoint := by
    intro u q
    have hj : ∃ c cs, q.endpoint = c :: cs := by cases q <;> exact ⟨_, _, rfl⟩
    obtain ⟨c, cs, e⟩ := hj
    rw [e]
    exact ⟨rfl, ht (c :: cs)⟩
  refine ⟨x.primary.ask q, x.fallback.ask q, ask_firstOf x w codec q log, (hu _ q).1, (hu _ q).1, (hu _ q).2, (hu _ q).2,
    rfl, rfl, ?_⟩
  cases q
  case state id => exact .inr ⟨⟨id, .inl rfl⟩, rfl, rfl⟩
  case block id => exact .inr ⟨⟨id, .inr rfl⟩, rfl, rfl⟩
  all_goals exact .inl ⟨rfl, rfl⟩

/-- Different questions have different endpoints: no node can take one for another. -/
theorem C88_distinct (a b : Question) (h : a.endpoint = b.endpoint) : a = b := endpoint_inj h

/-- Block numbers are sent as `0x` and hexadecimal digits of that value, without leading zeros. -/
theorem C88_number (n : Nat) : ∃ ds, quantity n = '0' :: 'x' :: ds ∧ hexValue ds = n ∧ 0 < ds.length ∧
    (ds.head? = some '0' → n = 0) := ⟨hexDigits n, rfl, hexDigits_spec n⟩

theorem provider_try_sends {α : Type} (x : Exec) (env : Env) (w : World) (parse : Bytes → Option α) (b : Body)
    (log : List Act) : ∃ extra, sends (x.try env w parse b log).1 = sends log ++ extra ∧ extra.length ≤ 8 ∧
      ∀ r ∈ extra, (r.url = x.primary ∨ r.url = x.fallback) ∧ r.body = b := by
  have hb : ∀ {u : Url} {c : Client}, newClient env u x.timeout .json = some c → (c.post b).url = u ∧ (c.post b).body = b := by
    intro u c h
    unfold newClient at h
    cases ha : authHeaders env u with
    | none => rw [ha] at h; simp at h
    | some auth => rw [ha] at h; simp only [Option.map_some, Option.some.injEq] at h; subst h; exact ⟨rfl, rfl⟩
  unfold Exec.try
  cases hp : newClient env x.primary x.timeout .json with
  | none => exact ⟨[], by simp, by simp, by simp⟩
  | some p =>
    obtain ⟨ep, ap, h1, e1⟩ := sendTo_asked w parse p b log
    obtain ⟨n, a1, a2, a3⟩ := asked_sends h1
    simp only [e1]
    cases hr : readJson parse ap with
    | some v =>
      refine ⟨List.replicate n (p.post b), by simp [sends_append, a3], by simp; omega, ?_⟩
      intro r hr
      rw [(List.mem_replicate.mp hr).2]
      exact ⟨.inl (hb hp).1, (hb hp).2⟩
    | none =>
      simp only []
      cases hf : newClient env x.fallback x.timeout .json with
      | none =>
        refine ⟨List.replicate n (p.post b), by simp [sends_append, a3, sends], by simp; omega, ?_⟩
        intro r hr
        rw [(List.mem_replicate.mp hr).2]
        exact ⟨.inl (hb hp).1, (hb hp).2⟩
      | some f =>
        obtain ⟨ef, af, h2, e2⟩ := sendTo_asked w parse f b (log ++ ep ++ [.pause fallbackRetryAfter])
        obtain ⟨m, b1, b2, b3⟩ := asked_sends h2
        simp only [e2]
        refine ⟨List.replicate n (p.post b) ++ List.replicate m (f.post b), by simp [sends_append, a3, b3, sends],
          by simp; omega, ?_⟩
        intro r hr
        rcases List.mem_append.mp hr with hr | hr
        · rw [(List.mem_replicate.mp hr).2]; exact ⟨.inl (hb hp).1, (hb hp).2⟩
        · rw [(List.mem_replicate.mp hr).2]; exact ⟨.inr (hb hf).1, (hb hf).2⟩

theorem provider_loop_sends {V Rc Blk : Type} (lib : Lib V Rc Blk) (x : Exec) (env : Env) (w : World) (number : Nat) :
    ∀ (k : Nat) (log : List Act), ∃ extra, sends (receiptsLoop lib x env w number k log).1 = sends log ++ extra ∧
      extra.length ≤ 8 * k ∧ ∀ r ∈ extra, (r.url = x.primary ∨ r.url = x.fallback) ∧ r.body = .one (askReceipts number 1)
  | 0, log => ⟨[], by simp [receiptsLoop], by simp, by simp⟩
  | k + 1, log => by
    obtain ⟨extra, h1, h2, h3⟩ := provider_try_sends x env w lib.parse (.one (receiptsCall number 1)) log
    rw [receiptsLoop]
    cases ht : x.try env w lib.parse (.one (receiptsCall number 1)) log with
    | mk mid o =>
    rw [ht] at h1
    have h3' : ∀ r ∈ extra, (r.url = x.primary ∨ r.url = x.fallback) ∧ r.body = .one (askReceipts number 1) := h3
    cases o with
    | none => exact ⟨extra, h1, by omega, h3'⟩
    | some v =>
      simp only []
      cases hm : lib.member v with
      | none => exact ⟨extra, h1, by omega, h3'⟩
      | some r =>
        simp only []
        split
        · obtain ⟨extra', i1, i2, i3⟩ := provider_loop_sends lib x env w number k (mid ++ [.pause receiptsRetryAfter])
          refine ⟨extra ++ extra', ?_, by simp; omega, ?_⟩
          · rw [i1, sends_append, h1]; simp [sends]
          · intro r hr
            rcases List.mem_append.mp hr with hr | hr
            · exact h3' r hr
            · exact i3 r hr
        · exact ⟨extra, h1, by omega, h3'⟩

/-- However the providers behave, one request to them becomes at most eight, and fetching the receipts of a block at most
forty; all of them go to the two providers and ask for what was asked for. -/
theorem C88_bounded {V Rc Blk α : Type} (lib : Lib V Rc Blk) (x : Exec) (env : Env) (w : World) (log : List Act) :
    (∀ (parse : Bytes → Option α) (b : Body), ∃ extra, sends (x.try env w parse b log).1 = sends log ++ extra ∧
      extra.length ≤ 8 ∧ ∀ r ∈ extra, (r.url = x.primary ∨ r.url = x.fallback) ∧ r.body = b) ∧
    (∀ number, ∃ extra, sends (getReceipts lib x env w number log).1 = sends log ++ extra ∧
      extra.length ≤ 40 ∧
      ∀ r ∈ extra, (r.url = x.primary ∨ r.url = x.fallback) ∧ r.body = .one (askReceipts number 1)) ∧
    (∀ (y : Cons) (codec : Codec α) (q : Question), ∃ n m, n ≤ 4 ∧ m ≤ 4 ∧ sends (y.ask w codec q log).1 =
      sends log ++ List.replicate n (y.primary.ask q) ++ List.replicate m (y.fallback.ask q)) := by
  refine ⟨fun parse b => provider_try_sends x env w parse b log, fun number => ?_, fun y codec q => ?_⟩
  · exact provider_loop_sends lib x env w number 5 log
  · obtain ⟨n, m, _, h2, h3, h4⟩ := firstOf_sends rfl (ask_firstOf y w codec q log)
    exact ⟨n, m, h2, h3, h4⟩

/-- Receipts of a block. A null answer is followed by a second and the same request, up to five times in all. Anything else
ends the call: with the receipts that were in the answer, or with an error. The call never aborts. -/
theorem C88_receipts {V Rc Blk : Type} (lib : Lib V Rc Blk) (x : Exec) (env : Env) (w : World) (number : Nat)
    (log : List Act) : (getReceipts lib x env w number log).2 ≠ .panic ∧
    ((∃ after, NullRounds lib x env w (askReceipts number 1) 5 log after ∧
        getReceipts lib x env w number log = (after, .err)) ∨
      ∃ n mid, n < 5 ∧ NullRounds lib x env w (askReceipts number 1) n log mid ∧
        (getReceipts lib x env w number log).1 = (x.try env w lib.parse (.one (askReceipts number 1)) mid).1 ∧
        ((getReceipts lib x env w number log).2 = .err ∧
            (∀ v r, (x.try env w lib.parse (.one (askReceipts number 1)) mid).2 = some v → Carries lib v r →
              lib.receipts r = none) ∧
            (∀ v, (x.try env w lib.parse (.one (askReceipts number 1)) mid).2 = some v → ¬ SaysNull lib v) ∨
          ∃ v r rc, (x.try env w lib.parse (.one (askReceipts number 1)) mid).2 = some v ∧ Carries lib v r ∧
            lib.receipts r = some rc ∧ (getReceipts lib x env w number log).2 = .ok rc)) := by
  have h := receiptsLoop_spec lib x env w number 5 log
  refine ⟨?_, h⟩
  rcases h with ⟨_, _, h⟩ | ⟨_, _, _, _, _, h | ⟨_, _, _, _, _, _, h⟩⟩
  · unfold getReceipts; rw [h]; simp
  · unfold getReceipts; rw [h.1]; simp
  · unfold getReceipts; rw [h]; simp

/-- Receipts that come after up to four null answers are returned. -/
theorem C88_patient {V Rc Blk : Type} (lib : Lib V Rc Blk) (x : Exec) (env : Env) (w : World) (number : Nat)
    (log : List Act) (n : Nat) (hn : n < 5) (mid after : List Act) (v r : V) (rc : Rc)
    (h1 : NullRounds lib x env w (askReceipts number 1) n log mid)
    (h2 : x.try env w lib.parse (.one (askReceipts number 1)) mid = (after, some v)) (h3 : Carries lib v r)
    (h4 : lib.receipts r = some rc) : getReceipts lib x env w number log = (after, .ok rc) := by
  have : ∀ (k n : Nat) (log : List Act), n < k → NullRounds lib x env w (askReceipts number 1) n log mid →
      receiptsLoop lib x env w number k log = (after, .ok rc) := by
    intro k
    induction k with
    | zero => intro n log hn; omega
    | succ k ih =>
      intro n log hn hnull
      have hm : lib.member v = some r := by simp [Lib.member, h3.1]
      cases n with
      | zero =>
        cases hnull
        have hr : lib.isNull r = false := by
          unfold Lib.isNull
          split
          · next h => exact absurd rfl (h3.2 _ h)
          · rfl
        rw [receiptsLoop, show receiptsCall number 1 = askReceipts number 1 from rfl, h2]
        simp only [hm, hr, Bool.false_eq_true, if_false, Lib.receiptsOf, h3.1, h4]
      | succ n =>
        obtain ⟨mid', v', t1, ⟨r', s1, s2⟩, t2⟩ := hnull
        have hm' : lib.member v' = some r' := by simp [Lib.member, s1]
        have hr : lib.isNull r' = true := by simp [Lib.isNull, s2]
        rw [receiptsLoop, show receiptsCall number 1 = askReceipts number 1 from rfl, t1]
        simp only [hm', hr, if_true]
        exact ih n _ (by omega) t2
  exact this 5 n log hn h1

/-- Receipts of several blocks. The blocks are asked for in batches of ten, in their order, one after another; each block
gets what is at its position in the answer to its batch. If a batch fails or one of its answers has no receipts, the whole
call fails. -/
theorem C88_range {V Rc Blk : Type} (lib : Lib V Rc Blk) (x : Exec) (env : Env) (w : World) (numbers : List Nat)
    (hd : numbers.Nodup) (log : List Act) (m : List (Nat × Rc))
    (h : (getReceiptsRange lib x env w numbers log).2 = .ok m) :
    ∃ answers, Batches x env w lib.parseList (rangeAsked numbers) answers log (getReceiptsRange lib x env w numbers log).1 ∧
      (∀ n rc, (n, rc) ∈ m ↔ ∃ (i : Nat) (vs : List V) (v r : V), numbers[i]? = some n ∧ answers[i / 10]? = some vs ∧
        vs[i % 10]? = some v ∧ resultOf lib v = some r ∧ lib.receipts r = some rc) ∧
      ∀ (i : Nat) (vs : List V) (v : V), i < numbers.length → answers[i / 10]? = some vs → vs[i % 10]? = some v →
        ∃ r rc, resultOf lib v = some r ∧ lib.receipts r = some rc := by
  have hok : ∀ (v : V) (rc : Rc), lib.receiptsOf v = .ok rc ↔ ∃ r, resultOf lib v = some r ∧ lib.receipts r = some rc := by
    intro v rc
    unfold Lib.receiptsOf resultOf
    cases hs : lib.shape v with
    | null => simp
    | other => simp
    | object res =>
      cases res with
      | none => simp
      | some r => cases hr : lib.receipts r <;> simp [hr]
  obtain ⟨answers, h1, h2, h3⟩ := rangeLoop_spec lib x env w numbers.length (rangeCalls numbers) [] log m
    (by simp [rangeCalls]) h (by rw [rangeCalls_fst]; exact hd) (by simp)
  rw [rangeCalls_fst] at h2
  refine ⟨answers, by rw [← rangeCalls_snd]; exact h1, ?_, ?_⟩
  · intro n rc
    rw [h2 n rc]
    constructor
    · rintro (h | ⟨i, vs, v, a, b, c, d⟩)
      · simp at h
      · obtain ⟨r, e, f⟩ := (hok v rc).mp d
        exact ⟨i, vs, v, r, a, b, c, e, f⟩
    · rintro ⟨i, vs, v, r, a, b, c, e, f⟩
      exact .inr ⟨i, vs, v, a, b, c, (hok v rc).mpr ⟨r, e, f⟩⟩
  · intro i vs v a b c
    obtain ⟨rc, d⟩ := h3 i vs v (by simpa [rangeCalls] using a) b c
    obtain ⟨r, e, f⟩ := (hok v rc).mp d
    exact ⟨r, rc, e, f⟩

theorem provider_pairUp_panic {V Rc Blk : Type} {lib : Lib V Rc Blk} : ∀ {vs : List V} {ns : List Nat} {m : List (Nat × Rc)},
    pairUp lib vs ns m = .panic → ∃ v ∈ vs, lib.shape v = .other
  | v :: vs, n :: ns, m, h => by
    simp only [pairUp] at h
    split at h
    · obtain ⟨v', h1, h2⟩ := provider_pairUp_panic h
      exact ⟨v', by simp [h1], h2⟩
    · cases h
    · next hv =>
      refine ⟨v, by simp, ?_⟩
      unfold Lib.receiptsOf at hv
      split at hv
      · split at hv <;> cases hv
      · cases hv
      · cases hv
      · next e => exact e
  | [], _, _, h => by simp [pairUp] at h
  | _ :: _, [], _, h => by simp [pairUp] at h

/-- Part of: asking for the receipts of several blocks never aborts. It aborts only if a provider answers a batch with a list
in which some value is neither an object nor null (`C88_abort_violated`); an error, a missing result or a result that cannot
be read is an error. -/
theorem C88_abort_partial {V Rc Blk : Type} (lib : Lib V Rc Blk) (x : Exec) (env : Env) (w : World) (numbers : List Nat)
    (log : List Act) (h : (getReceiptsRange lib x env w numbers log).2 = .panic) :
    ∃ body before after vs v, x.try env w lib.parseList body before = (after, some vs) ∧ v ∈ vs ∧ lib.shape v = .other := by
  have : ∀ (k : Nat) (calls : List (Nat × Call)) (m : List (Nat × Rc)) (log : List Act),
      (rangeLoop lib x env w k calls m log).2 = .panic →
      ∃ body before after vs v, x.try env w lib.parseList body before = (after, some vs) ∧ v ∈ vs ∧ lib.shape v = .other := by
    intro k
    induction k with
    | zero => intro calls m log h; cases h
    | succ k ih =>
      intro calls m log h
      unfold rangeLoop at h
      split at h
      · cases h
      · split at h
        · cases h
        · next ht =>
          split at h
          · exact ih _ _ _ h
          · cases h
          · next hp =>
            obtain ⟨v, h1, h2⟩ := provider_pairUp_panic hp
            exact ⟨_, _, _, _, v, ht, h1, h2⟩
  exact this _ _ _ _ h

/-- A body is given under the hash of its block, and only if it fits the header. -/
theorem C88_body {Blk Hash Bd : Type} (hash : Blk → Hash) (body : Blk → Bd) (fits : Blk → Bool) (b : Blk) (x : Hash × Bd) :
    getBlockBody hash body fits b = some x ↔ fits b = true ∧ x = (hash b, body b) := by
  unfold getBlockBody
  split
  · next h => simp [h, eq_comm]
  · next h => simp [h]

/-- Of the questions to consensus nodes, only that for updates is answered with a list. -/
theorem C88_list (q : Question) : q.isList = true ↔ ∃ start count, q = .updates start count := by
  cases q <;> simp [Question.isList]

/-- A block that is returned was read from the answer to the request for this height, and is from after the merge. That
it has this height is not checked, see `C88_height_violated`. -/
theorem C88_block {V Rc Blk : Type} (lib : Lib V Rc Blk) (x : Exec) (env : Env) (w : World) (height : Nat)
    (log after : List Act) (b : Blk) (h : getBlock lib x env w height log = (after, some b)) :
    ∃ v r, x.try env w lib.parse (.one ⟨chars% "eth_getBlockByNumber", [.text (quantity height), .flag true],
        height % 2 ^ 32⟩) log = (after, some v) ∧
      resultOf lib v = some r ∧ lib.block r = some b ∧ lib.paris (lib.number b) = true := by
  unfold getBlock at h
  simp only [Prod.mk.injEq] at h
  obtain ⟨h1, h2⟩ := h
  rw [Option.filter_eq_some_iff] at h2
  obtain ⟨h2, h3⟩ := h2
  rw [Option.bind_eq_some_iff] at h2
  obtain ⟨r, h2, h4⟩ := h2
  rw [Option.bind_eq_some_iff] at h2
  obtain ⟨v, h2, h5⟩ := h2
  exact ⟨v, r, Prod.ext h1 h2, h5, h4, h3⟩

/-- The secret is only sent to hosts with `pandaops.io` in their name, and it is the configured one. -/
theorem C88_secret (env : Env) (u : Url) (t : Nat) (k : Kind) (c : Client) (h : newClient env u t k = some c)
    (value : List Char) (hm : (secretHeader, value) ∈ c.headers) :
    value = env.clientSecret.getD (chars% "null") ∧ ∃ host a b, u.host = some host ∧ host = a ++ (chars% "pandaops.io") ++ b := by
  unfold newClient at h
  cases ha : authHeaders env u with
  | none => rw [ha] at h; simp at h
  | some auth =>
    rw [ha] at h
    simp only [Option.map_some, Option.some.injEq] at h
    subst h
    have hm' : (secretHeader, value) ∈ auth := by
      rcases List.mem_append.mp hm with hm | hm
      · cases k <;> simp [secretHeader, contentTypeName, acceptName] at hm
      · exact hm
    unfold authHeaders at ha
    cases hh : u.host with
    | none => rw [hh] at ha; simp at ha
    | some host =>
      rw [hh] at ha
      simp only [] at ha
      split at ha
      · next hc =>
        obtain ⟨a, b, hab⟩ := contains_spec _ _ hc
        refine ⟨?_, host, a, b, rfl, hab⟩
        split at ha
        · next i s hi hs =>
          simp only [Option.some.injEq] at ha
          subst ha
          simp only [List.mem_cons, List.not_mem_nil, or_false, Prod.mk.injEq] at hm'
          rcases hm' with ⟨h1, _⟩ | ⟨_, h2⟩
          · exact absurd h1 (by decide)
          · unfold headerValue at hs
            split at hs
            · cases hs; exact h2
            · simp at hs
        · simp at ha
      · simp only [Option.some.injEq] at ha; subst ha; simp at hm'

/-- The events of the stream arrive in order: every event of a known topic whose data can be read, as an event of its
topic, and nothing else. Connections, comments, errors and unknown events are passed over and end nothing. -/
theorem C88_events {E : Type} (parse : Topic → List Char → Option E) :
    events parse [] = [] ∧
    (∀ a b, events parse (a ++ b) = events parse a ++ events parse b) ∧
    (∀ t data, t ∈ topics ∧ events parse [.event t.name data] = (parse t data).toList) ∧
    (∀ type data, (∀ t ∈ topics, t.name ≠ type) → events parse [.event type data] = []) ∧
    events parse [.connected] = [] ∧ events parse [.comment] = [] ∧ events parse [.error] = [] := by
  refine ⟨rfl, fun a b => by simp [events], ?_, ?_, rfl, rfl, rfl⟩
  · intro t data
    refine ⟨by cases t <;> decide, ?_⟩
    have : beaconEvent parse t.name data = parse t data := by
      cases t <;> simp [beaconEvent, Topic.name]
    simp only [events, List.filterMap_cons, this, List.filterMap_nil]
    cases parse t data <;> rfl
  · intro type data h
    have h1 := h .chainReorg (by decide)
    have h2 := h .head (by decide)
    have h3 := h .lightClientOptimisticUpdate (by decide)
    have h4 := h .finalizedCheckpoint (by decide)
    have : beaconEvent parse type data = none := by
      simp only [beaconEvent, Ne.symm h1, Ne.symm h2, Ne.symm h3, Ne.symm h4, if_false]
    simp [events, this]

/-- The latest block number is the one in the answer to the request for the latest block, without its transactions. -/
theorem C88_latest {V Rc Blk : Type} (lib : Lib V Rc Blk) (x : Exec) (env : Env) (w : World) (log : List Act) :
    (getLatest lib x env w log).1 = (x.try env w lib.parse
      (.one ⟨chars% "eth_getBlockByNumber", [.text (chars% "latest"), .flag false], 1⟩) log).1 ∧
    ∀ n, (getLatest lib x env w log).2 = some n ↔ ∃ v r, (x.try env w lib.parse
      (.one ⟨chars% "eth_getBlockByNumber", [.text (chars% "latest"), .flag false], 1⟩) log).2 = some v ∧
      resultOf lib v = some r ∧ lib.headNumber r = some n := by
  refine ⟨rfl, fun n => ?_⟩
  have hm : ∀ v, resultOf lib v = lib.member v := fun v => rfl
  simp only [getLatest, hm, Option.bind_eq_some_iff, show blockMethod = (chars% "eth_getBlockByNumber") from rfl]
  constructor
  · rintro ⟨r, ⟨v, h1, h2⟩, h3⟩; exact ⟨v, r, h1, h2, h3⟩
  · rintro ⟨v, r, h1, h2, h3⟩; exact ⟨r, ⟨v, h1, h2⟩, h3⟩

/-- What every request carries: requests to execution nodes are JSON; consensus nodes are asked for SSZ or else JSON, and
for lists only for JSON. A host with `pandaops.io` in its name gets the credentials, `null` for those that are not set. -/
theorem C88_headers (env : Env) (u : Url) (t : Nat) (c : Client) (q : Question) :
    (newClient env u t .json = some c → ((chars% "content-type"), (chars% "application/json")) ∈ c.headers) ∧
    (newClient env u t .ssz = some c →
      (q.isList = false → ((chars% "accept"), (chars% "application/octet-stream;q=1.0,application/json;q=0.9")) ∈
        (c.ask q).headers) ∧
      (q.isList = true → ∀ v, ((chars% "accept"), v) ∈ (c.ask q).headers ↔ v = (chars% "application/json;q=1"))) ∧
    (∀ k, newClient env u t k = some c → (∃ a b, u.host = some (a ++ (chars% "pandaops.io") ++ b)) →
      ((chars% "cf-access-client-id"), env.clientId.getD (chars% "null")) ∈ (c.ask q).headers ∧
      ((chars% "cf-access-client-secret"), env.clientSecret.getD (chars% "null")) ∈ (c.ask q).headers ∧
      ∀ b, ((chars% "cf-access-client-id"), env.clientId.getD (chars% "null")) ∈ (c.post b).headers ∧
        ((chars% "cf-access-client-secret"), env.clientSecret.getD (chars% "null")) ∈ (c.post b).headers) := by
  have hn : ∀ {k : Kind} {c : Client}, newClient env u t k = some c → ∃ auth, authHeaders env u = some auth ∧
      c.headers = (match k with
        | .json => [(contentTypeName, jsonType)]
        | .ssz => [(contentTypeName, sszType), (acceptName, acceptPriority)]) ++ auth := by
    intro k c h
    unfold newClient at h
    cases ha : authHeaders env u with
    | none => rw [ha] at h; simp at h
    | some auth => rw [ha] at h; simp only [Option.map_some, Option.some.injEq] at h; subst h; exact ⟨auth, rfl, rfl⟩
  refine ⟨fun h => ?_, fun h => ⟨fun hq => ?_, fun hq v => ?_⟩, fun k h hh => ?_⟩
  · obtain ⟨auth, _, e⟩ := hn h
    rw [e]; exact List.mem_append_left _ (List.mem_cons_self ..)
  · obtain ⟨auth, _, e⟩ := hn h
    simp only [Client.ask, hq, e]
    exact List.mem_append_left _ (List.mem_cons_of_mem _ (List.mem_cons_self ..))
  · simp only [Client.ask, hq, if_true, overrideHeaders]
    constructor
    · intro hm
      rcases List.mem_append.mp hm with hm | hm
      · simp only [List.mem_cons, List.not_mem_nil, or_false, Prod.mk.injEq] at hm
        rcases hm with ⟨h1, _⟩ | ⟨_, h2⟩
        · exact absurd h1 (by decide)
        · exact h2
      · have := (List.mem_filter.mp hm).2
        simp [acceptName] at this
    · rintro rfl
      exact List.mem_append_left _ (List.mem_cons_of_mem _ (List.mem_cons_self ..))
  · obtain ⟨auth, ha, e⟩ := hn h
    obtain ⟨a, b, hu⟩ := hh
    have hc : contains (a ++ (chars% "pandaops.io") ++ b) (chars% "pandaops.io") = true := by
      clear hu ha
      induction a with
      | nil => simp [contains]
      | cons x a ih => simp only [List.cons_append, contains, Bool.or_eq_true]; exact .inr ih
    have hv : ∀ {s v : List Char}, headerValue s = some v → v = s := by
      intro s v h
      unfold headerValue at h
      split at h
      · exact (Option.some.inj h).symm
      · simp at h
    have hauth : auth = [(idName, env.clientId.getD (chars% "null")), (secretName, env.clientSecret.getD (chars% "null"))] := by
      unfold authHeaders at ha
      rw [hu] at ha
      simp only [hc, if_true] at ha
      split at ha
      · next i s hi hs => cases ha; rw [hv hi, hv hs]
      · simp at ha
    have h1 : (idName, env.clientId.getD (chars% "null")) ∈ c.headers := by
      rw [e, hauth]; exact List.mem_append_right _ (List.mem_cons_self ..)
    have h2 : (secretName, env.clientSecret.getD (chars% "null")) ∈ c.headers := by
      rw [e, hauth]; exact List.mem_append_right _ (List.mem_cons_of_mem _ (List.mem_cons_self ..))
    have ho : ∀ {n v : List Char}, (n, v) ∈ c.headers → n ≠ contentTypeName → n ≠ acceptName →
        (n, v) ∈ (c.ask q).headers := by
      intro n v hm n1 n2
      simp only [Client.ask]
      split
      · exact List.mem_append_right _ (List.mem_filter.mpr ⟨hm, by simp [n1, n2]⟩)
      · exact hm
    exact ⟨ho h1 (by decide) (by decide), ho h2 (by decide) (by decide), fun b => ⟨h1, h2⟩⟩

/-- The stream of events is asked for at the primary provider, with the names of the topics and commas between them. -/
theorem C88_stream (x : Cons) (ts : List Topic) : (eventsUrl x ts).host = x.primary.base.host ∧
    (eventsUrl x ts).path = (chars% "/eth/v1/events") ∧
    (eventsUrl x ts).query = some ((chars% "topics=") ++ List.intercalate [','] (ts.map Topic.name)) := by
  have h : ∀ l : List (List Char), commas l = List.intercalate [','] l := by
    intro l
    induction l with
    | nil => rfl
    | cons a l ih =>
      cases l with
      | nil => simp [commas, List.intercalate]
      | cons b l => simp only [commas, ih]; simp [List.intercalate, List.intersperse]
  refine ⟨rfl, rfl, ?_⟩
  rw [← h]
  rfl

/-- Providers that are offline do not keep the clients from starting: only an address without a host does, or credentials
that cannot be sent. -/
theorem C88_start (env : Env) (w : World) (primary fallback : Url) (timeout : Nat) (log : List Act)
    (hp : Valid env primary) (hf : Valid env fallback) :
    (newExec env w primary fallback timeout log).2 = some ⟨primary, fallback, timeout⟩ ∧
    ∃ x, (newCons env w primary fallback timeout log).2 = some x ∧ x.primary.base = primary ∧ x.fallback.base = fallback ∧
      x.primary.timeout = timeout ∧ x.fallback.timeout = timeout := by
  obtain ⟨p, e1, _, _⟩ := provider_valid hp timeout .json
  obtain ⟨p', e2, e3, e4⟩ := provider_valid hp timeout .ssz
  obtain ⟨f', e5, e6, e7⟩ := provider_valid hf timeout .ssz
  refine ⟨by simp only [newExec, e1], ⟨p', f'⟩, by simp only [newCons, e2, e5], e3, e6, e4, e7⟩

/-! ## What does not hold -/

/-- A library for the examples: a value is a list of numbers `id, shape, rest`; an answer to a call has its id. -/
def provLib : Lib (List UInt8) (List UInt8) (List UInt8) where
  parse := fun b => some b
  parseList := fun b => some (b.map fun n => [n])
  shape := fun v => match v with
    | [] => .null
    | 255 :: _ => .other
    | 254 :: _ => .object none
    | v => .object (some v)
  receipts := fun v => some v
  block := fun v => some v
  headNumber := fun v => v.head?.map (·.toNat)
  number := fun v => (v.headD 0).toNat
  paris := fun n => 2 ≤ n

def provExec : Exec := ⟨⟨some (chars% "a.example"), (chars% "/"), none⟩, ⟨some (chars% "b.example"), (chars% "/"), none⟩, 20⟩

def provEnv : Env := ⟨none, none⟩

/-- A world in which the primary provider answers with `a` and the fallback with `b`. -/
def provWorld (a b : Answer) : World := fun log =>
  match log.getLast? with
  | some (.send r) => if r.url = provExec.primary then a else b
  | _ => ⟨false, none⟩

def provJson (bytes : Bytes) : Answer := ⟨false, some ⟨some (chars% "application/json"), some bytes⟩⟩

/-- The answers of a batch are taken in the order in which they arrive, not by their ids: when a node answers two calls in
the other order, as JSON-RPC allows, the two blocks get each other's receipts. -/
theorem C88_order_violated : ∃ (w : World) (m : List (Nat × List UInt8)),
    (∀ log r, log.getLast? = some (.send r) → w log = provJson [21, 20]) ∧
    (getReceiptsRange provLib provExec provEnv w [20, 21] []).2 = .ok m ∧ (20, [21]) ∈ m ∧ (21, [20]) ∈ m := by
  refine ⟨provWorld (provJson [21, 20]) (provJson [21, 20]), [(21, [20]), (20, [21])], ?_, by decide +kernel, by decide, by decide⟩
  intro log r h
  simp only [provWorld, h]
  split <;> rfl

/-- A batch that is answered in part is taken for a full answer: blocks are missing from the result, and the fallback is
not asked. -/
theorem C88_short_violated : ∃ (w : World) (m : List (Nat × List UInt8)),
    (getReceiptsRange provLib provExec provEnv w [20, 21] []).2 = .ok m ∧ (∀ rc, (21, rc) ∉ m) ∧
    ∀ r ∈ sends (getReceiptsRange provLib provExec provEnv w [20, 21] []).1, r.url ≠ provExec.fallback := by
  refine ⟨provWorld (provJson [20]) (provJson [20, 21]), [(20, [20])], by decide +kernel, by simp, by decide +kernel⟩

/-- A batch that is answered with something that is no object aborts the program. -/
theorem C88_abort_violated : ∃ w : World, (getReceiptsRange provLib provExec provEnv w [20] []).2 = .panic :=
  ⟨provWorld (provJson [255]) (provJson [255]), by decide +kernel⟩

/-- The height of a block is not checked: a node that answers with another block has it taken for the one asked for. -/
theorem C88_height_violated : ∃ (w : World) (after : List Act) (b : List UInt8),
    getBlock provLib provExec provEnv w 20 [] = (after, some b) ∧ provLib.number b = 21 :=
  ⟨provWorld (provJson [21]) (provJson [20]),
    (getBlock provLib provExec provEnv (provWorld (provJson [21]) (provJson [20])) 20 []).1, [21], by decide +kernel⟩

/-- The fallback does not help when the primary provider answers with an error of JSON-RPC or with null (a block that it
does not have): the call fails although the fallback has the block. -/
theorem C88_error_violated : ∃ w : World, (∀ log r, log.getLast? = some (.send r) → r.url = provExec.fallback →
      w log = provJson [20]) ∧
    (getBlock provLib provExec provEnv w 20 []).2 = none ∧
    (∀ r ∈ sends (getBlock provLib provExec provEnv w 20 []).1, r.url ≠ provExec.fallback) ∧
    (getReceipts provLib provExec provEnv w 20 []).2 = .err := by
  refine ⟨provWorld (provJson [254]) (provJson [20]), ?_, by decide +kernel, by decide +kernel, by decide +kernel⟩
  intro log r h hr
  have : provExec.fallback ≠ provExec.primary := by decide
  simp only [provWorld, h, hr, this, if_false]

/-- A consensus provider whose address has a path (as those with a key in it) is asked without this path. -/
theorem C88_path_violated (c : Client) (q : Question) (u : Url) (h : c.base = u) :
    (c.ask q).url = ({ u with path := (chars% "/"), query := none } : Url).join q.endpoint := by
  subst h
  have hj : ∃ c cs, q.endpoint = c :: cs := by cases q <;> exact ⟨_, _, rfl⟩
  obtain ⟨a, cs, e⟩ := hj
  simp only [Client.ask, e, Url.join]

/-- The secret is sent to hosts that do not belong to `pandaops.io`. -/
theorem C88_secret_violated : ∃ (env : Env) (u : Url) (c : Client), u.host = some (chars% "pandaops.io.example.org") ∧
    env.clientSecret = some (chars% "s3cret") ∧ newClient env u 20 .ssz = some c ∧
    (secretHeader, (chars% "s3cret")) ∈ c.headers := by
  refine ⟨⟨none, some (chars% "s3cret")⟩, ⟨some (chars% "pandaops.io.example.org"), (chars% "/"), none⟩,
    ⟨⟨some (chars% "pandaops.io.example.org"), (chars% "/"), none⟩,
      [(contentTypeName, sszType), (acceptName, acceptPriority), (idName, (chars% "null")), (secretName, (chars% "s3cret"))], 20⟩,
    rfl, rfl, by decide +kernel, by decide +kernel⟩

/-- Answers with a charset in their content type (`application/json; charset=utf-8`) are not read, whatever they say. -/
theorem C88_charset_violated {T : Type} (x : Cons) (codec : Codec T) (w : World) (q : Question) (log : List Act)
    (h : ∀ l, ∃ b, (w l).response = some ⟨some (chars% "application/json; charset=utf-8"), some b⟩) :
    (x.ask w codec q log).2 = none := by
  have hn : ∀ l, readAs codec q.isList (w l) = none := by
    intro l
    obtain ⟨b, e⟩ := h l
    unfold readAs
    rw [e]
    simp
  obtain ⟨ep, ap, h1, h2 | h2⟩ := ask_firstOf x w codec q log
  · obtain ⟨v, h3, _⟩ := h2
    obtain ⟨n, _, _, h4, _⟩ := h1
    rw [h4, hn] at h3
    simp at h3
  · obtain ⟨_, ef, af, h3, h4, _⟩ := h2
    obtain ⟨n, _, _, h5, _⟩ := h3
    rw [h4, h5, hn]

/-! ## Examples -/

namespace ProviderEx

/-- Two temporary failures, then an answer: three requests to the primary provider, none to the fallback. -/
def flaky : World := fun log => if (sends log).length ≤ 2 then ⟨true, none⟩ else provJson [20]

example : Valid provEnv provExec.primary ∧ Valid provEnv provExec.fallback :=
  ⟨⟨⟨_, rfl⟩, by simp [provEnv]⟩, ⟨⟨_, rfl⟩, by simp [provEnv]⟩⟩

example : (sends (getBlock provLib provExec provEnv flaky 20 []).1).length = 3 ∧
    (getBlock provLib provExec provEnv flaky 20 []).2 = some [20] := by decide +kernel

/-- The primary provider is down: four requests to it, five seconds, one to the fallback. -/
def down : World := provWorld ⟨true, none⟩ (provJson [20])

example : (getBlock provLib provExec provEnv down 20 []).2 = some [20] ∧
    (sends (getBlock provLib provExec provEnv down 20 []).1).length = 5 ∧
    Act.pause 5 ∈ (getBlock provLib provExec provEnv down 20 []).1 := by decide +kernel

/-- Both are down. -/
example : (getBlock provLib provExec provEnv (fun _ => ⟨true, none⟩) 20 []).2 = none ∧
    (sends (getBlock provLib provExec provEnv (fun _ => ⟨true, none⟩) 20 []).1).length = 8 := by decide +kernel

/-- Null three times, then receipts. In this library an answer of the form `[]` under `result` is null. -/
def nullLib : Lib (List UInt8) (List UInt8) (List UInt8) :=
  { provLib with shape := fun v => match v with
      | [] => .null
      | [1] => .object (some [])
      | v => .object (some v) }

def slow : World := fun log => if (sends log).length ≤ 3 then provJson [1] else provJson [20]

example : (getReceipts nullLib provExec provEnv slow 20 []).2 = .ok [20] ∧
    (sends (getReceipts nullLib provExec provEnv slow 20 []).1).length = 4 := by decide +kernel

example : ∃ mid, NullRounds nullLib provExec provEnv slow (askReceipts 20 1) 1 [] mid ∧ 1 < 5 := by
  refine ⟨_, ⟨(provExec.try provEnv slow nullLib.parse (.one (askReceipts 20 1)) []).1, [1], ?_, ⟨[], rfl, rfl⟩, rfl⟩, by decide⟩
  exact Prod.ext rfl (by decide +kernel)

/-- Twelve blocks in two batches. -/
def twelve : World := fun log =>
  match log.getLast? with
  | some (.send ⟨_, _, _, .batch cs⟩) => provJson (cs.map fun c => UInt8.ofNat (c.id + 100))
  | _ => ⟨false, none⟩

example : ((getReceiptsRange provLib provExec provEnv twelve (List.range 12) []).2 =
      .ok ((List.range 12).reverse.map fun n => (n, [UInt8.ofNat (n + 100)]))) ∧
    (sends (getReceiptsRange provLib provExec provEnv twelve (List.range 12) []).1).length = 2 := by decide +kernel

example : quantity 0 = (chars% "0x0") ∧ quantity 22431084 = (chars% "0x156456C") := by decide +kernel

example : (Question.updates 5 2).endpoint = (chars% "/eth/v1/beacon/light_client/updates?start_period=5&count=2") := by
  decide +kernel

example : (Client.ask ⟨⟨some (chars% "host"), (chars% "/key/abc/"), none⟩, [], 20⟩ (.block .finalized)).url =
    ⟨some (chars% "host"), (chars% "/eth/v2/beacon/blocks/finalized"), none⟩ := by decide +kernel

end ProviderEx

end Verif.Props
