import Verif.Lemmas.EthCall
import Verif.Lemmas.ExceptEq
import Verif.Props.BlockExecutor

/-!
# C100: `eth_call` runs on the state of the block asked for

The specification is in `EthCallSpec`: the program that should run, and what it gives on the true state of the block.
-/

namespace Verif.Props
open Verif.EthCall Verif.EthRpc Verif.Trie Verif.EvmState
open Verif.HeaderValidator (Trusted)
open Verif.Evm (Active)

variable {Hd Tx Rc Wd : Type}
variable (api : EthRpc.Api Hd Tx Rc Wd) (lib : EthCall.Lib Hd) (nets : Nat → Network)

theorem call_ran {api : EthRpc.Api Hd Tx Rc Wd} {lib : EthCall.Lib Hd} {nets : Nat → Network} {rounds : Nat}
    {t : EthCall.Request} {block : BlockId} (h : Ran (EthCall.call api lib nets rounds t block)) :
    ∃ hd o, headerOf api block = .ok hd ∧
      replay api.evm nets rounds (api.stateRoot hd)
        (createEvm lib (Evm.createBlockEnv (lib.view hd)) (t.fill (lib.view hd))) 0 .new = .ok o ∧
      EthCall.call api lib nets rounds t block = o.report := by
  obtain ⟨o, ho⟩ := h
  have ho' := ho
  unfold EthCall.call at ho
  split at ho
  · cases o <;> cases ho
  · split at ho
    · cases o <;> cases ho
    · next hd hh =>
      refine ⟨hd, ?_⟩
      split at ho
      · cases o <;> cases ho
      all_goals next hr => exact ⟨_, hh, hr, ho'.trans ho.symm⟩

theorem call_of {api : EthRpc.Api Hd Tx Rc Wd} {lib : EthCall.Lib Hd} {nets : Nat → Network} {rounds : Nat}
    {t : EthCall.Request} {block : BlockId} {hd : Hd} (hst : api.state ≠ none) (hh : Answers api block hd) {o : Outcome}
    (hr : replay api.evm nets rounds (api.stateRoot hd)
        (createEvm lib (Evm.createBlockEnv (lib.view hd)) (t.fill (lib.view hd))) 0 .new = .ok o) :
    EthCall.call api lib nets rounds t block = o.report := by
  unfold EthCall.call
  cases hs : api.state with
  | none => exact absurd hs hst
  | some net =>
    simp only [headerOf_iff.mpr hh, hr]
    cases o <;> rfl

theorem runs_under {lib : EthCall.Lib Hd} {t : EthCall.Request} {h : Evm.Header} (hn : h.number < 22431084)
    {p : Program} (f : Evm.SpecId) (hf : Active h.number f) :
    RunsUnder lib f t h p ↔ p = createEvm lib (Evm.createBlockEnv h) (t.fill h) := by
  have hs : Evm.getSpecId h.number = f := (C68_fork_partial h.number hn f).mpr hf
  have hb := Evm.createBlockEnv_spec hn
  have ht := modify_fill t h lib.defaultTx
  constructor
  · rintro ⟨b, x, h1, h2, rfl⟩
    have e1 : b = Evm.createBlockEnv h := by
      generalize Evm.createBlockEnv h = y at hb
      cases b; cases y; cases h1; cases hb; simp_all
    have e2 : x = (t.fill h).modify lib.defaultTx := by
      generalize (t.fill h).modify lib.defaultTx = y at ht
      cases x; cases y; cases h2; cases ht; simp_all
    rw [e1, e2, ← hs]
    rfl
  · rintro rfl
    exact ⟨_, _, hb, ht, by rw [← hs]; rfl⟩

/-- Part of: if the EVM runs to its end, it is the one for the fork that is active at the block, with the environment of
the block and the transaction asked for, at a header that is the one asked for; and what is reported is its result on the
true state of that block: the output, that it reverted, or why it halted. This is so whatever validated answers the state
network gives, even if they change from question to question, unless an answer has the hash of something else. What is
missing: blocks of Prague and later (`C100_prague_violated`). -/
theorem C100_call_partial (H : Id → Id → Id) (trusted : Trusted) (seen : List Hd) (hv : HistoryValidated api H trusted seen)
    (hs : ∀ i, Validated api.evm (nets i)) (hempty : api.evm.trie.K [] = api.evm.keccakEmpty) (rounds : Nat)
    (t : EthCall.Request) (block : BlockId) (hr : Ran (EthCall.call api lib nets rounds t block)) :
    ∃ h, IsHeader api H trusted h block ∧ ∀ f, Active (lib.view h).number f → (lib.view h).number < 22431084 →
      ∃ p, RunsUnder lib f t (lib.view h) p ∧ ∀ db state w, IsWorld api.evm db (api.stateRoot h) state w →
        EthCall.call api lib nets rounds t block = (p.play w).report ∨ Collision api.evm nets db state w := by
  obtain ⟨hd, o, hh, ho, hc⟩ := call_ran hr
  refine ⟨hd, C60_header api H trusted seen hv block hd hh, fun f hf hn => ⟨_, (runs_under hn f hf).mpr rfl, ?_⟩⟩
  intro db state w hw
  rcases replay_true hs hempty hw _ 0 [] (by intro e he; cases he) o ho with ⟨h1, _⟩ | h1
  · left; rw [hc, h1]
  · exact .inr h1

/-- If the networks have the header and all of the state, every call ends with its true result, provided that the EVM
asks for codes only of accounts that it has read, and for no block hashes. -/
theorem C100_complete_partial (rounds : Nat) (t : EthCall.Request) (block : BlockId) (h : Hd) (f : Evm.SpecId) (p : Program)
    (db : List Bytes) (state : PTrie) (w : World) (hst : api.state ≠ none) (hh : Answers api block h)
    (hf : Active (lib.view h).number f) (hn : (lib.view h).number < 22431084) (hp : RunsUnder lib f t (lib.view h) p)
    (hw : IsWorld api.evm db (api.stateRoot h) state w) (hd : FullDepth api.evm db state w)
    (hs : ∀ i, Validated api.evm (nets i) ∧ ServesAll api.evm (nets i) db (api.stateRoot h) state w)
    (hempty : api.evm.trie.K [] = api.evm.keccakEmpty) (hb : NoBareHash api.evm) (hr : 65 ≤ rounds)
    (hu : p.Usual api.evm.keccakEmpty w []) :
    EthCall.call api lib nets rounds t block = (p.play w).report ∨ Collision api.evm nets db state w := by
  rw [(runs_under hn f hf).mp hp] at hu ⊢
  rcases replay_complete (fun i => (hs i).1) hempty hw (fun i => (hs i).2) hd hb hr _ 0 [] [] (by intro e he; cases he)
    (by intro k hk; cases hk) hu with h1 | h1
  · exact .inl (call_of hst hh h1)
  · exact .inr h1

/-- A call that needs the hash of a block is never answered, although the header it starts from is known and the
networks may have everything: it does not run to its end. -/
theorem C100_block_hash_violated (rounds : Nat) (t : EthCall.Request) (block : BlockId) (h : Hd) (f : Evm.SpecId)
    (p : Program) (db : List Bytes) (state : PTrie) (w : World) (hh : Answers api block h)
    (hf : Active (lib.view h).number f) (hn : (lib.view h).number < 22431084) (hp : RunsUnder lib f t (lib.view h) p)
    (hw : IsWorld api.evm db (api.stateRoot h) state w) (hs : ∀ i, Validated api.evm (nets i))
    (hempty : api.evm.trie.K [] = api.evm.keccakEmpty) (ha : p.AsksBlockHash w) :
    ¬ Ran (EthCall.call api lib nets rounds t block) ∨ Collision api.evm nets db state w := by
  by_cases hr : Ran (EthCall.call api lib nets rounds t block)
  · obtain ⟨hd, o, hh', ho, hc⟩ := call_ran hr
    have e : hd = h := by
      have := headerOf_iff.mpr hh
      rw [hh'] at this
      exact Except.ok.inj this
    subst e
    rw [(runs_under hn f hf).mp hp] at ha
    rcases replay_true hs hempty hw _ 0 [] (by intro e he; cases he) o ho with ⟨_, h1⟩ | h1
    · exact absurd ha h1
    · exact .inr h1
  · exact .inl hr

/-- From the first block of Prague on, calls are not run under its rules: what the EVM does under them makes no difference,
only what it does under the rules of Cancun. -/
theorem C100_prague_violated (lib' : EthCall.Lib Hd) (rounds : Nat) (t : EthCall.Request) (block : BlockId) (h : Hd)
    (hh : Answers api block h) (hn : 22431084 ≤ (lib.view h).number) (hv : lib'.view = lib.view)
    (hd : lib'.defaultTx = lib.defaultTx) (hc : ∀ b x, lib'.program .cancun b x = lib.program .cancun b x) :
    Active (lib.view h).number .prague ∧
    EthCall.call api lib' nets rounds t block = EthCall.call api lib nets rounds t block := by
  obtain ⟨h1, h2, _⟩ := C68_prague_violated _ hn
  refine ⟨h1, ?_⟩
  have h3 : Evm.getSpecId (Evm.createBlockEnv (lib.view h)).number = .cancun := h2
  unfold EthCall.call
  cases api.state with
  | none => rfl
  | some net => simp only [headerOf_iff.mpr hh, hv, createEvm, h3, hd, hc]

/-- The type of the transaction and its authorizations make no difference: a request for another type is run as one of
the default type. -/
theorem C100_type_violated (rounds : Nat) (t : EthCall.Request) (block : BlockId) (type authorizations : Option Nat) :
    EthCall.call api lib nets rounds { t with txType := type, authorizations := authorizations } block =
      EthCall.call api lib nets rounds t block := by
  have h1 : ∀ h d, (({ t with txType := type, authorizations := authorizations } : EthCall.Request).fill h).modify d =
      (t.fill h).modify d := by
    intro h d
    obtain ⟨_, _, gasPrice, _, _, _, gas, _, _, _, _, _, _, _, _, _⟩ := t
    cases gasPrice <;> cases gas <;> rfl
  unfold EthCall.call
  simp only [createEvm, h1]

theorem replay_safe {env : EvmState.Env} {nets : Nat → Network} {rounds : Nat} {root : Id} (hb : NoBareHash env)
    (hr : 65 ≤ rounds) {e : EvmState.Err} (he : e = .panic ∨ e = .running) : ∀ (p : Program) (i : Nat) (s : Reader),
    replay env nets rounds root p i s ≠ .error (.state e)
  | .done r, i, s => by simp [replay]
  | .ask q next, i, s => by
    simp only [replay]
    split
    · next e' s' ha =>
      intro hc
      cases hc
      cases q with
      | account a =>
        simp only [answer] at ha
        split at ha <;> cases ha
        next h => exact (C59_no_abort env rounds root (nets i) s a 0 0 hb hr e he).1 (by rw [h])
      | slot a j =>
        simp only [answer] at ha
        split at ha <;> cases ha
        next h => exact (C59_no_abort env rounds root (nets i) s a j 0 hb hr e he).2.1 (by rw [h])
      | code c =>
        simp only [answer] at ha
        split at ha <;> cases ha
        next h => exact (C59_no_abort env rounds root (nets i) s [] 0 c hb hr e he).2.2 (by rw [h])
      | blockHash n => simp only [answer] at ha; cases ha
    · exact replay_safe hb hr he _ _ _

/-- No call aborts and no question of a call goes on for ever, whatever the networks answer. -/
theorem C100_no_abort (rounds : Nat) (t : EthCall.Request) (block : BlockId) (hb : NoBareHash api.evm) (hr : 65 ≤ rounds)
    (e : EvmState.Err) (he : e = .panic ∨ e = .running) :
    EthCall.call api lib nets rounds t block ≠ .error (.database (.state e)) := by
  unfold EthCall.call
  split
  · simp
  · split
    · simp
    · split
      · next h =>
        intro hc
        cases hc
        exact replay_safe hb hr he _ _ _ h
      all_goals simp

/-- Without a state network, and for the tags `latest`, `pending` and so on, calls are refused. -/
theorem C100_unsupported (rounds : Nat) (t : EthCall.Request) (block : BlockId) :
    (api.state = none → EthCall.call api lib nets rounds t block = .error (.request .stateDisabled)) ∧
    (api.state ≠ none → EthCall.call api lib nets rounds t .tag = .error (.request .tag)) := by
  constructor
  · intro h
    simp only [EthCall.call, h]
  · intro h
    unfold EthCall.call
    cases hs : api.state with
    | none => exact absurd hs h
    | some n => rfl

end Verif.Props

namespace Verif.EthCallExample
open Verif.EthCall Verif.EthRpc Verif.Trie Verif.EvmState Verif.Props
open Verif.Props.EvmStateExample (K address nobody slot account state)

/-- An EVM that gives what is in the slot 5 of the callee and its code, if the callee has the balance 2. With
the data 7 it asks for the hash of the block 4; with the data 8 it reverts. -/
def program (f : Evm.SpecId) (_ : Evm.BlockEnv) (tx : Evm.TxEnv) : Program :=
  if tx.data = 7 then .ask (.blockHash 4) fun h => .done (.success (Id.bytes h))
  else if tx.data = 8 then .done .revert
  else if f ≠ .frontier ∨ tx.gasLimit ≠ 30 then .done (.invalid 1)
  else .ask (.account address) fun x => match (x : Option Info) with
    | none => .done (.halt 2)
    | some x =>
      if x.balance = 2 then .ask (.code x.codeHash) fun c => .ask (.slot address slot) fun v =>
        .done (.success (UInt8.ofNat v.toNat :: c))
      else .done (.halt 3)

def defaultTx : Evm.TxEnv := ⟨0, 0, 100, 0, .call 0, 0, 0, 0, some 1, 0, none, 0, 0, 0⟩

def lib : EthCall.Lib UInt8 := ⟨program, defaultTx, fun h => ⟨h.toNat, 0, 30, 0, none, 0, 0, none, 0, none⟩⟩

def request (data : Nat) : EthCall.Request :=
  ⟨none, some (.call 1), none, none, none, none, none, none, some data, none, none, none, none, none, none, none⟩

/-- The network forgets the nodes of the state after it was asked once. -/
def nets : Nat → Network
  | 0 => EvmStateExample.net [[1], [2]]
  | _ => EvmStateExample.net [[3]]

def env := EvmStateExample.env (K [3])

theorem nets_validated (i : Nat) : Validated env (nets i) := by
  cases i with
  | zero => exact EvmStateExample.validated _ _ (by decide)
  | succ i => exact EvmStateExample.validated _ _ (by decide)

theorem runs : replay env nets 65 (K [1]) (program .frontier (Evm.createBlockEnv (lib.view 5))
    (((request 1).fill (lib.view 5)).modify defaultTx)) 0 .new = .ok (.success [2, 0x60, 0x01]) := by decide +kernel

/-- Calls are answered with the networks of the other examples: what is in the slot, 258, as a byte, and the code; that
the call reverted; and an error for the hash of a block. -/
example : ∃ header, HistoryValidated (EthRpcExample.api header) HistoryExample.treeHash HistoryExample.trusted [5] ∧
    EthCall.call (EthRpcExample.api header) lib nets 65 (request 1) (.number 5) = .ok [2, 0x60, 0x01] ∧
    EthCall.call (EthRpcExample.api header) lib nets 65 (request 8) (.number 5) = .error .reverted ∧
    EthCall.call (EthRpcExample.api header) lib nets 65 (request 7) (.hash 1) = .error (.database .blockHash) := by
  obtain ⟨header, hv, hs, h1, h2⟩ := EthRpcExample.example_api
  refine ⟨header, hv, call_of (o := .success [2, 0x60, 0x01]) (by simp [EthRpcExample.api]) h2 runs, call_of (o := .revert) (by simp [EthRpcExample.api]) h2 rfl, ?_⟩
  unfold EthCall.call
  simp only [headerOf_iff.mpr h1]
  rfl

theorem lookup_state {path : List UInt8} {v : Bytes} (h : state.lookup path = some v) : v = [9] := by
  cases path with
  | nil => cases h
  | cons n path =>
    simp only [state, PTrie.lookup] at h
    split at h
    · split at h
      · simp only [PTrie.lookup] at h
        split at h
        · generalize List.drop _ path = rest at h
          cases rest with
          | nil => cases h
          | cons m rest =>
            simp only [PTrie.lookup] at h
            split at h
            · split at h
              · simp only [PTrie.lookup] at h
                split at h
                · cases h; rfl
                · cases h
              · cases h
            · cases h
        · cases h
      · cases h
    · cases h

theorem rep_more {e : Trie.Env} {db db' : List Bytes} {n : Node} {t : PTrie} (h : Rep e db n t) (hs : ∀ b ∈ db, b ∈ db') :
    Rep e db' n t := by
  induction h with
  | empty => exact .empty
  | leaf k v => exact .leaf k v
  | extension p n t _ ih => exact .extension p n t ih
  | branch ns ts v _ ih => exact .branch ns ts v ih
  | hash b n t hb hd _ ih => exact .hash b n t (hs b hb) hd ih

/-- The whole state of the example. -/
def world : World where
  account a := (state.lookup (hexDigits (K a))).map fun _ => account (K [3])
  slot a i := if state.lookup (hexDigits (K a)) = none then 0
    else if hexDigits (K (Id.bytes i)) = hexDigits (K (Id.bytes slot)) then 258 else 0
  code h := if h = K [] then [] else EvmStateExample.code
  blockHash _ := 9

theorem is_world : IsWorld env [[1], [2], [3]] (K [1]) state world where
  commits := rep_more (EvmStateExample.commits (K [3])) (by decide)
  account a := by
    simp only [world]
    cases h : state.lookup (hexDigits (K a)) with
    | none => exact h
    | some v => exact ⟨v, h, by rw [lookup_state h]; rfl⟩
  missing a i h := by
    simp only [world, Option.map_eq_none_iff] at h ⊢
    rw [if_pos h]
  storage a x h := by
    simp only [world, Option.map_eq_some_iff] at h
    obtain ⟨v, h1, rfl⟩ := h
    refine ⟨.leaf (hexDigits (K (Id.bytes slot))) [1, 2], rep_more (EvmStateExample.storage_commits (K [3])) (by decide), fun i => ?_⟩
    simp only [SlotIs, world, h1, PTrie.lookup]
    by_cases hi : hexDigits (K (Id.bytes i)) = hexDigits (K (Id.bytes slot))
    · have hi' : hexDigits (env.trie.K (Id.bytes i)) = hexDigits (K (Id.bytes slot)) := hi
      simp only [hi, hi', if_true, reduceCtorEq, if_false]
      exact ⟨[1, 2], rfl, by decide, by decide⟩
    · have hi' : ¬ hexDigits (env.trie.K (Id.bytes i)) = hexDigits (K (Id.bytes slot)) := hi
      simp [hi, hi']
  code ah x h := by
    obtain ⟨v, _, hv⟩ := h
    simp only [env, EvmStateExample.env] at hv
    split at hv
    · cases hv; decide +kernel
    · cases hv
  noCode := by decide +kernel

/-- The answer is the true one. -/
example : (program .frontier (Evm.createBlockEnv (lib.view 5)) (((request 1).fill (lib.view 5)).modify defaultTx)).play world =
    .success [2, 0x60, 0x01] := by decide +kernel

/-- A call that the theorem about block hashes is about. -/
example : (program .frontier (Evm.createBlockEnv (lib.view 5))
    (((request 7).fill (lib.view 5)).modify defaultTx)).AsksBlockHash world := .inl ⟨4, rfl⟩

theorem storage_depth {t : PTrie} (h : Commits env.trie [[1], [2], [3]] (K [3]) t) : t.NoEmptyKeys := by
  unfold Commits at h
  generalize hr : Node.hash (K [3]) = n at h
  cases h with
  | hash b n t hb hd hrep =>
    have hk : K b = K [3] := (Node.hash.inj hr).symm
    have : b = [3] := by
      simp only [List.mem_cons, List.not_mem_nil, or_false] at hb
      rcases hb with rfl | rfl | rfl
      · exact absurd hk (by decide +kernel)
      · exact absurd hk (by decide +kernel)
      · rfl
    subst this
    have hn : n = EvmStateExample.leaf := (Option.some.inj (show some EvmStateExample.leaf = some n from hd)).symm
    subst hn
    unfold EvmStateExample.leaf at hrep
    generalize hl : hexDigits (K (Id.bytes slot)) ++ [16] = k at hrep
    cases hrep with
    | leaf key v =>
      refine .leaf _ _ ?_
      intro h0
      subst h0
      have := congrArg List.length hl
      simp [hexDigits] at this
  | _ => cases hr

/-- A network that has all of the state: the hypotheses of `C100_complete_partial` are met. -/
example : FullDepth env [[1], [2], [3]] state world ∧
    ServesAll env (EvmStateExample.net [[1], [2], [3]]) [[1], [2], [3]] (K [1]) state world ∧
    (program .frontier (Evm.createBlockEnv (lib.view 5)) (((request 1).fill (lib.view 5)).modify defaultTx)).Usual
      env.keccakEmpty world [] := by
  refine ⟨⟨EvmStateExample.noEmptyKeys, ?_⟩, ⟨?_, ?_, EvmStateExample.servesCode _ _⟩, ?_⟩
  · intro a x t hx ht
    simp only [world, Option.map_eq_some_iff] at hx
    obtain ⟨v, _, rfl⟩ := hx
    exact storage_depth ht
  · exact EvmStateExample.serves _ _ _ _ _ (by decide +kernel) fun _ _ => rfl
  · intro a x hx
    exact EvmStateExample.serves _ _ _ _ _ (by decide +kernel) fun _ _ => rfl
  · have h1 : world.account address = some (account (K [3])) := by decide +kernel
    have hp : program .frontier (Evm.createBlockEnv (lib.view 5)) (((request 1).fill (lib.view 5)).modify defaultTx) =
        .ask (.account address) fun x => match (x : Option Info) with
          | none => .done (.halt 2)
          | some x =>
            if x.balance = 2 then .ask (.code x.codeHash) fun c => .ask (.slot address slot) fun v =>
              .done (.success (UInt8.ofNat v.toNat :: c))
            else .done (.halt 3) := rfl
    rw [hp]
    refine ⟨by simp, by simp, ?_⟩
    simp only [World.reply, World.codeHashes, h1, Option.map_some, Option.toList]
    show Program.Usual _ _ (if (account (K [3])).balance = 2 then _ else _) _
    rw [if_pos (show (account (K [3])).balance = 2 from rfl)]
    generalize (account (K [3])).codeHash = ch
    exact ⟨fun h hq => .inr (by cases hq; exact List.mem_cons_self), by simp, by simp, by simp, trivial⟩

end Verif.EthCallExample
