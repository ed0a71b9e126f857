import Verif.Props.EthCallSpec
import Verif.Props.EvmState
import Verif.Props.EthRpc
import Verif.Lemmas.BlockExecutor

namespace Verif.EvmState
open Verif.Trie Verif.StateContent Verif.Props
open Verif.ContentKey (State)

/-- Every entry of the cache has a property. -/
def Cached (P : State → Value → Prop) (s : Reader) : Prop := ∀ e ∈ s.cache, P e.1 e.2

/-- All that the network answers has a property. -/
def Gives (P : State → Value → Prop) (net : Network) : Prop :=
  ∀ key bs v, net key = some bs → Value.decode key bs = some v → P key v

variable {P : State → Value → Prop}

theorem fetchContent_cached {net : Network} {s : Reader} (hn : Gives P net) (h : Cached P s) (key : State) :
    Cached P (fetchContent net s key).2 := by
  unfold fetchContent
  split
  · exact h
  · split
    · exact h
    · next bs hb =>
      split
      · exact h
      · next v hv =>
        intro e he
        rcases List.mem_cons.mp he with rfl | he
        · exact hn _ bs _ hb hv
        · exact h e he

theorem walk_cached {env : Env} {net : Network} (hn : Gives P net) {key : List UInt8 → Id → State} {path : List UInt8} :
    ∀ (rounds : Nat) (node : Id) (rem : List UInt8) (s : Reader), Cached P s →
    Cached P (walk env net key path rounds node rem s).2
  | 0, node, rem, s, hp => hp
  | rounds + 1, node, rem, s, hp => by
    simp only [walk]
    split
    · exact hp
    · next pre _ =>
      have h1 := fetchContent_cached hn hp (key pre node)
      rw [← fetchNode_snd env] at h1
      split
      · next hf => rw [hf] at h1; exact h1
      · next hf =>
        rw [hf] at h1
        split
        · exact h1
        · exact h1
        · exact walk_cached hn rounds _ _ _ h1
        · exact h1
        · exact h1

theorem accountState_cached {env : Env} {net : Network} (hn : Gives P net) {s : Reader} (h : Cached P s) (rounds : Nat)
    (root ah : Id) : Cached P (accountState env net rounds root ah s).2 := by
  unfold Cached
  rw [(accountState_state env net rounds root ah s).2, traverse_snd]
  exact walk_cached hn rounds root _ s h

theorem storage_cached {env : Env} {net : Network} (hn : Gives P net) {s : Reader} (h : Cached P s) (rounds : Nat)
    (root : Id) (address : Bytes) (slot : BitVec 256) : Cached P (storage env net rounds root address slot s).2 := by
  have h1 := accountState_cached (env := env) hn h rounds root (env.trie.K address)
  unfold storage
  split
  · next h => rw [h] at h1; exact h1
  · next h => rw [h] at h1; exact h1
  · next h =>
    rw [h] at h1
    rw [storageAt_snd, traverse_snd]
    exact walk_cached hn rounds _ _ _ h1

theorem codeByHash_cached {env : Env} {net : Network} (hn : Gives P net) {s : Reader} (h : Cached P s) (codeHash : Id) :
    Cached P (codeByHash env net codeHash s).2 := by
  unfold codeByHash
  split
  · exact h
  · split
    · exact h
    · next ah _ =>
      have h1 := fetchContent_cached hn h (.bytecode ah codeHash)
      unfold contractBytecode
      split <;> next hf => rw [hf] at h1; exact h1

theorem run_cached {env : Env} {rounds : Nat} {root : Id} : ∀ (past : List (Network × Request)),
    (∀ e ∈ past, Gives P e.1) → Cached P (run env rounds root past)
  | [], _ => by intro e he; cases he
  | (net, r) :: past, hn => by
    have ih := run_cached (env := env) (rounds := rounds) (root := root) past (fun e he => hn e (by simp [he]))
    have h1 := hn (net, r) (by simp)
    cases r with
    | basic a => exact accountState_cached h1 ih rounds root _
    | code h => exact codeByHash_cached h1 ih h
    | storage a i => exact storage_cached h1 ih rounds root a i

/-- A code that is read is empty or in the cache. -/
theorem codeByHash_from {env : Env} {net : Network} {s s' : Reader} {codeHash : Id} {c : Bytes}
    (h : codeByHash env net codeHash s = (.ok c, s')) :
    (codeHash = env.keccakEmpty ∧ c = []) ∨
    ∃ ah, find s.owners codeHash = some ah ∧ ∃ e ∈ s'.cache, e.2 = .bytecode c := by
  unfold codeByHash at h
  split at h
  · next e => cases h; exact .inl ⟨e, rfl⟩
  · split at h
    · cases h
    · next ah ho =>
      unfold contractBytecode at h
      split at h
      · cases h
      · next hf =>
        cases h
        exact .inr ⟨ah, ho, _, find_mem (fetchContent_find hf), rfl⟩
      · cases h

theorem AccountIs.unique {env : Env} {state : PTrie} {ah : Id} {x y : Option Account} (h1 : AccountIs env state ah x)
    (h2 : AccountIs env state ah y) : x = y := by
  cases x with
  | none =>
    cases y with
    | none => rfl
    | some b => obtain ⟨v, hv, _⟩ := h2; rw [AccountIs] at h1; rw [h1] at hv; cases hv
  | some a =>
    obtain ⟨v, hv, hd⟩ := h1
    cases y with
    | none => rw [AccountIs] at h2; rw [h2] at hv; cases hv
    | some b =>
      obtain ⟨v', hv', hd'⟩ := h2
      rw [hv] at hv'; cases hv'
      rw [hd] at hd'; exact hd'

theorem SlotIs.unique {env : Env} {t : PTrie} {i x y : BitVec 256} (h1 : SlotIs env t i x) (h2 : SlotIs env t i y) :
    x = y := by
  unfold SlotIs at h1 h2
  split at h1
  · next h => rw [h] at h2; simp only at h2; rw [h1, h2]
  · next v h =>
    rw [h] at h2
    obtain ⟨w, hw, _, hx⟩ := h1
    obtain ⟨w', hw', _, hy⟩ := h2
    rw [hw] at hw'; cases hw'
    exact BitVec.eq_of_toNat_eq (by rw [hx, hy])

end Verif.EvmState

namespace Verif.EthCall
open Verif.Trie Verif.StateContent Verif.EvmState Verif.Props
open Verif.ContentKey (State)

/-- The value was answered at some time. -/
def From (nets : Nat → Network) (key : State) (v : Value) : Prop :=
  ∃ i bs, nets i key = some bs ∧ Value.decode key bs = some v

variable {env : EvmState.Env} {nets : Nat → Network} {rounds : Nat} {root : Id} {db : List Bytes} {state : PTrie} {w : World}

/-- What was asked, all of it of the network. -/
def Of (nets : Nat → Network) (past : List (Network × EvmState.Request)) : Prop := ∀ e ∈ past, ∃ i, e.1 = nets i

theorem Of.cached {past : List (Network × EvmState.Request)} (h : Of nets past) :
    Cached (From nets) (run env rounds root past) :=
  run_cached past fun e he key bs v h1 h2 => by
    obtain ⟨i, hi⟩ := h e he
    exact ⟨i, bs, hi ▸ h1, h2⟩

theorem collision_of {s : Reader} (hc : Cached (From nets) s) (h : ByteCollision env.trie.K s.nodes db) :
    Collision env nets db state w := by
  obtain ⟨n, hn, b, hb, hne, hk⟩ := h
  simp only [Reader.nodes, List.mem_filterMap] at hn
  obtain ⟨e, he, hen⟩ := hn
  split at hen
  · next n' hv =>
    cases hen
    obtain ⟨i, bs, h1, h2⟩ := hc e he
    rw [hv] at h2
    exact .inl ⟨i, e.1, bs, n, h1, h2, b, hb, hne, hk⟩
  · cases hen

/-- The request that a question becomes. -/
def Ask.request : Ask → Option EvmState.Request
  | .account a => some (.basic a)
  | .code h => some (.code h)
  | .slot a i => some (.storage a i)
  | .blockHash _ => none

/-- A question that is answered is one of the database, and leaves the reader as the request does. -/
theorem answer_after {net : Network} {s s' : Reader} {q : Ask} {x : q.Reply}
    (h : answer env net rounds root s q = (.ok x, s')) :
    ∃ r, q.request = some r ∧ s' = r.after env rounds root net s := by
  cases q with
  | account a =>
    simp only [answer] at h
    split at h <;> cases h
    next hb => exact ⟨_, rfl, by simp only [Request.after, hb]⟩
  | code a =>
    simp only [answer] at h
    split at h <;> cases h
    next hb => exact ⟨_, rfl, by simp only [Request.after, hb]⟩
  | slot a i =>
    simp only [answer] at h
    split at h <;> cases h
    next hb => exact ⟨_, rfl, by simp only [Request.after, hb]⟩
  | blockHash n => simp only [answer] at h; cases h

theorem Of.cons {past : List (Network × EvmState.Request)} (hp : Of nets past) (i : Nat) (r : EvmState.Request) :
    Of nets ((nets i, r) :: past) := by
  intro e he
  rcases List.mem_cons.mp he with rfl | he
  · exact ⟨i, rfl⟩
  · exact hp e he

/-- An answer is the true one. -/
theorem answer_true (hv : ∀ i, Validated env (nets i)) (hempty : env.trie.K [] = env.keccakEmpty)
    (hw : IsWorld env db root state w) {past : List (Network × EvmState.Request)} (hp : Of nets past) {i : Nat} {q : Ask}
    {x : q.Reply} {s' : Reader} (h : answer env (nets i) rounds root (run env rounds root past) q = (.ok x, s')) :
    x = w.reply q ∨ Collision env nets db state w := by
  have hpv : ∀ e ∈ past, Validated env e.1 := fun e he => by
    obtain ⟨j, hj⟩ := hp e he
    exact hj ▸ hv j
  obtain ⟨r, hr, hs⟩ := answer_after h
  have hcs : Cached (From nets) s' := by
    rw [hs]
    exact (hp.cons i r).cached (env := env) (rounds := rounds) (root := root)
  cases q with
  | account a =>
    simp only [answer] at h
    split at h <;> cases h
    next y hb =>
      rcases C59_account env rounds root past (nets i) db state a y s' hpv (hv i) hw.commits hb with h1 | h1
      · left
        rw [h1.unique (hw.account a)]
        rfl
      · exact .inr (collision_of hcs h1)
  | code c =>
    simp only [answer] at h
    split at h <;> cases h
    next hb =>
      have hk := C59_code env rounds root past (nets i) c x s' hempty hpv (hv i) hb
      rcases codeByHash_from hb with ⟨rfl, rfl⟩ | ⟨ah, ho, e, he, hev⟩
      · left; exact hw.noCode.symm
      · rcases run_owned (rounds := rounds) hw.commits past hpv with h1 | h1
        · obtain ⟨_, a', ha', hc'⟩ := h1 _ _ ho
          by_cases hx : x = w.code c
          · exact .inl hx
          · right; right
            obtain ⟨j, bs, h2, h3⟩ := hcs e he
            rw [hev] at h3
            refine ⟨j, e.1, bs, x, h2, h3, ah, a', ha', ?_, ?_⟩
            · rw [hc']; exact hx
            · rw [hw.code ah a' ha', hc']; exact hk
        · exact .inr (collision_of (Of.cached hp) h1)
  | slot a j =>
    simp only [answer] at h
    split at h <;> cases h
    next hb =>
      rcases C59_storage env rounds root past (nets i) db state a j x s' hpv (hv i) hw.commits hb with
        ⟨h1, h2⟩ | ⟨y, h1, h2⟩ | h1
      · left
        rw [h2]
        exact (hw.missing a j ((hw.account a).unique h1)).symm
      · obtain ⟨t, ht, hs'⟩ := hw.storage a y ((hw.account a).unique h1)
        rcases h2 db t ht with h3 | h3
        · exact .inl (h3.unique (hs' j))
        · exact .inr (collision_of hcs h3)
      · exact .inr (collision_of hcs h1)
  | blockHash n => cases hr

theorem replay_true (hv : ∀ i, Validated env (nets i)) (hempty : env.trie.K [] = env.keccakEmpty)
    (hw : IsWorld env db root state w) : ∀ (p : Program) (i : Nat) (past : List (Network × EvmState.Request)),
    Of nets past → ∀ o, replay env nets rounds root p i (run env rounds root past) = .ok o →
    (o = p.play w ∧ ¬ p.AsksBlockHash w) ∨ Collision env nets db state w
  | .done r, i, past, hp, o, h => by
    simp only [replay] at h
    cases h
    exact .inl ⟨rfl, id⟩
  | .ask q next, i, past, hp, o, h => by
    simp only [replay] at h
    split at h
    · cases h
    · next x s' ha =>
      obtain ⟨r, hr, hs⟩ := answer_after ha
      rcases answer_true hv hempty hw hp ha with hx | hcol
      · rw [hs, show r.after env rounds root (nets i) (run env rounds root past) =
          run env rounds root ((nets i, r) :: past) from rfl] at h
        rcases replay_true hv hempty hw (next x) (i + 1) _ (hp.cons i r) o h with ⟨h1, h2⟩ | h1
        · left
          rw [hx] at h1 h2
          refine ⟨h1, ?_⟩
          rintro (⟨n, rfl⟩ | h3)
          · cases hr
          · exact h2 h3
        · exact .inr h1
      · exact .inr hcol

/-- For each hash of a code seen, its account was read. -/
def Seen (env : EvmState.Env) (rounds : Nat) (root : Id) (past : List (Network × EvmState.Request)) (seen : List Id) : Prop :=
  ∀ h ∈ seen, ∃ later earlier net a x s', past = later ++ (net, EvmState.Request.basic a) :: earlier ∧
    x.codeHash = h ∧ basic env net rounds root a (run env rounds root earlier) = (.ok (some x), s')

theorem Seen.cons {past : List (Network × EvmState.Request)} {seen : List Id} (h : Seen env rounds root past seen)
    (e : Network × EvmState.Request) : Seen env rounds root (e :: past) seen := by
  intro k hk
  obtain ⟨later, earlier, net, a, x, s', h1, h2, h3⟩ := h k hk
  exact ⟨e :: later, earlier, net, a, x, s', by rw [h1]; rfl, h2, h3⟩

theorem replay_complete (hv : ∀ i, Validated env (nets i)) (hempty : env.trie.K [] = env.keccakEmpty)
    (hw : IsWorld env db root state w) (hs : ∀ i, ServesAll env (nets i) db root state w)
    (hd : FullDepth env db state w) (hb : NoBareHash env) (hr : 65 ≤ rounds) :
    ∀ (p : Program) (i : Nat) (past : List (Network × EvmState.Request)) (seen : List Id),
    Of nets past → Seen env rounds root past seen → p.Usual env.keccakEmpty w seen →
    replay env nets rounds root p i (run env rounds root past) = .ok (p.play w) ∨ Collision env nets db state w
  | .done r, i, past, seen, hp, hsn, hu => .inl rfl
  | .ask q next, i, past, seen, hp, hsn, hu => by
    obtain ⟨hu1, hu2, hu3⟩ := hu
    have hpa : ∀ e ∈ past, Serves env e.1 .accountTrieNode db root := fun e he => by
      obtain ⟨j, hj⟩ := hp e he
      exact hj ▸ (hs j).nodes
    -- the question is answered
    have hans : (∃ x s', answer env (nets i) rounds root (run env rounds root past) q = (.ok x, s')) ∨
        Collision env nets db state w := by
      cases q with
      | account a =>
        have h1 := C59_account_complete env rounds root past (nets i) db state a (w.account a) hpa (hs i).nodes hw.commits
          hd.1 hb hr (hw.account a)
        generalize hq : basic env (nets i) rounds root a (run env rounds root past) = y at h1
        obtain ⟨y1, s'⟩ := y
        simp only at h1
        subst h1
        exact .inl ⟨_, s', by simp only [answer, hq]; rfl⟩
      | slot a j =>
        cases ha : w.account a with
        | none =>
          have h1 := C59_account_complete env rounds root past (nets i) db state a none hpa (hs i).nodes hw.commits
            hd.1 hb hr (ha ▸ hw.account a)
          generalize hq : basic env (nets i) rounds root a (run env rounds root past) = y at h1
          obtain ⟨y1, s'⟩ := y
          simp only at h1
          subst h1
          unfold basic at hq
          exact .inl ⟨_, s', by simp only [answer, EvmState.storage, hq]; rfl⟩
        | some x =>
          obtain ⟨t, ht, hsl⟩ := hw.storage a x ha
          have h1 := C59_storage_complete_partial env rounds root past (nets i) db db state t a x j (w.slot a j)
            (fun e he => by obtain ⟨k, hk⟩ := hp e he; exact hk ▸ ⟨(hs k).nodes, (hs k).storage a x ha⟩)
            ⟨(hs i).nodes, (hs i).storage a x ha⟩ hw.commits hd.1 ht (hd.2 a x t ha ht) hb hr (ha ▸ hw.account a) (hsl j)
          generalize hq : EvmState.storage env (nets i) rounds root a j (run env rounds root past) = y at h1
          obtain ⟨y1, s'⟩ := y
          simp only at h1
          subst h1
          exact .inl ⟨_, s', by simp only [answer, hq]; rfl⟩
      | code c =>
        rcases hu1 c rfl with rfl | hc
        · exact .inl ⟨_, _, by simp only [answer, codeByHash, if_true]; rfl⟩
        · obtain ⟨later, earlier, net, a, x, s', rfl, rfl, hba⟩ := hsn c hc
          rcases C59_code_complete env rounds root earlier later net (nets i) db state a x s' hw.commits
            (fun e he => by obtain ⟨k, hk⟩ := hp e he; exact hk ▸ ⟨hv k, (hs k).code⟩) (hs i).code hba with ⟨c, h1⟩ | h1
          · generalize hq : codeByHash env (nets i) x.codeHash
              (run env rounds root (later ++ (net, EvmState.Request.basic a) :: earlier)) = y at h1
            obtain ⟨y1, s''⟩ := y
            simp only at h1
            subst h1
            exact .inl ⟨_, s'', by simp only [answer, hq]; rfl⟩
          · exact .inr (collision_of (Of.cached hp) h1)
      | blockHash n => exact absurd rfl (hu2 n)
    rcases hans with ⟨x, s', ha⟩ | hcol
    · rcases answer_true hv hempty hw hp ha with hx | hcol
      · obtain ⟨r, hr', hs'⟩ := answer_after ha
        have hseen : Seen env rounds root ((nets i, r) :: past) (w.codeHashes q ++ seen) := by
          intro k hk
          rcases List.mem_append.mp hk with hk | hk
          · cases q with
            | account a =>
              cases hr'
              simp only [World.codeHashes, Option.mem_toList, Option.map_eq_some_iff] at hk
              obtain ⟨y, hy, rfl⟩ := hk
              have h1 := C59_account_complete env rounds root past (nets i) db state a (w.account a) hpa (hs i).nodes
                hw.commits hd.1 hb hr (hw.account a)
              generalize hq : basic env (nets i) rounds root a (run env rounds root past) = z at h1
              obtain ⟨z1, s2⟩ := z
              simp only at h1
              rw [hy] at h1
              subst h1
              exact ⟨[], past, nets i, a, y, s2, rfl, rfl, hq⟩
            | code c => simp [World.codeHashes] at hk
            | slot a j => simp [World.codeHashes] at hk
            | blockHash n => simp [World.codeHashes] at hk
          · exact hsn.cons _ k hk
        have := replay_complete hv hempty hw hs hd hb hr (next x) (i + 1) ((nets i, r) :: past) _ (hp.cons i r) hseen
          (by rw [hx]; exact hu3)
        simp only [replay, ha]
        rw [hs']
        simp only [Program.play]
        rw [← hx]
        exact this
      · exact .inr hcol
    · exact .inr hcol

/-- The transaction of a request. -/
theorem modify_fill (t : Request) (h : Evm.Header) (d : Evm.TxEnv) : AskedFor t h d ((t.fill h).modify d) := by
  obtain ⟨sender, to, gasPrice, maxFee, maxPriority, maxBlobFee, gas, value, input, data, nonce, chainId, al, bh, ty, au⟩ := t
  cases gasPrice <;> cases gas <;> constructor <;> first | rfl | (cases input <;> rfl)

end Verif.EthCall
