import Verif.Lemmas.BlockExecutor

/-!
# C68: Blocks are executed under the rules of their fork

The specification is `Executes` in `BlockExecutorSpec`.
-/

namespace Verif.Props
open Verif.Evm

/-- A rule of a fork before Prague applies exactly from the first block of the fork on. -/
theorem C68_fork_rules (n : Nat) (f : SpecId) (first : Nat) (hf : (f, first) ∈ mainnet) (hp : f ≠ .prague) :
    (getSpecId n).isEnabledIn f = true ↔ first ≤ n := by
  rw [enabled n f first hf hp]; exact decide_eq_true_iff

/-- Part of: the fork chosen for a block is the one that is active there. What is missing: blocks of Prague and later
(`C68_prague_violated`). -/
theorem C68_fork_partial (n : Nat) (hn : n < 22431084) (f : SpecId) : getSpecId n = f ↔ Active n f :=
  ⟨fun h => h ▸ active_getSpecId hn, fun h => active_unique (active_getSpecId hn) h⟩

/-- Blocks from 22431084 on are of Prague, but the rules of Cancun are chosen for them. -/
theorem C68_prague_violated (n : Nat) (hn : 22431084 ≤ n) :
    Active n .prague ∧ getSpecId n = .cancun ∧ (getSpecId n).isEnabledIn .prague = false := by
  refine ⟨⟨⟨22431084, by decide, hn⟩, ?_⟩, ?_, not_prague n⟩
  · intro f b h _
    simp only [mainnet, List.mem_cons, Prod.mk.injEq, List.not_mem_nil, or_false] at h
    rcases h with ⟨rfl, _⟩ | ⟨rfl, _⟩ | ⟨rfl, _⟩ | ⟨rfl, _⟩ | ⟨rfl, _⟩ | ⟨rfl, _⟩ | ⟨rfl, _⟩ | ⟨rfl, _⟩ | ⟨rfl, _⟩ | ⟨rfl, _⟩ |
      ⟨rfl, _⟩ | ⟨rfl, _⟩ | ⟨rfl, _⟩ | ⟨rfl, _⟩ | ⟨rfl, _⟩ | ⟨rfl, _⟩ | ⟨rfl, _⟩ | ⟨rfl, _⟩ | ⟨rfl, _⟩ <;> decide
  · rcases getSpecId_cases n with h | h
    · exact h.2
    · omega

/-- After a block, exactly the payments due are made, in whatever order they are made: rewards to the miner and to the
miners of uncles, withdrawals, and what the DAO fork moves. Nothing else changes. -/
theorem C68_payments (b : Block) (s : State) (h : Payable b s) :
    ∃ s' c, beneficiaries b s = some (s', c) ∧ ∀ c', c.Perm c' → Settled b s (increment s' c') := settle h

/-- The DAO fork moves money and makes none: the accounts drained lose what its beneficiary gets. -/
theorem C68_dao (b : Block) (s s' : State) (hn : b.header.number = 1920000) (h : Settled b s s') (hu : b.uncles = some [])
    (hw : b.withdrawals = none) (hm : b.header.beneficiary ∉ daoAccounts ∧ b.header.beneficiary ≠ daoBeneficiary) :
    (∀ a ∈ daoAccounts, (s' a).balance = 0) ∧
    (s' daoBeneficiary).balance = (s daoBeneficiary).balance + (daoAccounts.map fun a => (s a).balance).sum ∧
    ∀ a, a ∉ daoAccounts → a ≠ daoBeneficiary → a ≠ b.header.beneficiary → s' a = s a := by
  have hb : daoBeneficiary ∉ daoAccounts := by decide +kernel
  have hz : ∀ a, a ≠ b.header.beneficiary → minerPay b a + unclesPay b a + withdrawalsPay b a = 0 := by
    intro a ha
    simp [minerPay, unclesPay, withdrawalsPay, unclesOf, withdrawalsOf, hu, hw, ha]
  refine ⟨fun a ha => ?_, ?_, fun a h1 h2 h3 => ?_⟩
  · rw [(h a).2, if_pos ⟨hn, ha⟩]
    unfold paid
    rw [hz a (fun e => hm.1 (by rw [← e]; exact ha)), if_neg (fun e => hb (by rw [← e]; exact ha))]
  · rw [(h daoBeneficiary).2, if_neg (fun e => hb e.2)]
    unfold paid
    rw [hz daoBeneficiary (fun e => hm.2 e.symm), if_pos rfl]
    unfold daoMoved
    rw [if_pos hn]; omega
  · obtain ⟨k1, k2⟩ := h a
    rw [if_neg (fun e => h1 e.2)] at k2
    unfold paid at k2
    rw [hz a h3, if_neg h2] at k2
    cases hx : s' a with
    | mk x y =>
      cases hy : s a with
      | mk z w =>
        rw [hx, hy] at k1 k2
        simp only [Nat.add_zero] at k1 k2
        rw [k1, k2]

/-- Part of: a block is executed exactly as its fork says, whatever the executor did before: the environment of earlier
blocks, transactions and system calls has no effect. It is refused exactly when it cannot be executed or uses other gas
than its header says. What is missing: blocks of Prague and later (`C68_prague_violated`, `C68_set_code_violated`). -/
theorem C68_execute_partial (r : Rules) (e : Evm) (b : Block) (hn : b.header.number < 22431084)
    (hp : ∀ s₂, AfterTransactions r b e.state s₂ → Payable b s₂) :
    (∀ e', executeBlock r e b = some e' → Executes r b e.state e'.state) ∧
    (∀ s', Executes r b e.state s' → ∃ e', executeBlock r e b = some e' ∧ e'.state = s') := by
  have hs : (SpecId.spuriousDragon, 2675000) ∈ mainnet := by decide
  have hclear : (setEnvironment r e b.header).clear = decide (2675000 ≤ b.header.number) := enabled _ _ _ hs (by decide)
  have henv : BlockEnvOf b.header (setEnvironment r e b.header).block := createBlockEnv_spec hn
  have hact : Active b.header.number (setEnvironment r e b.header).spec := active_getSpecId hn
  have hst : (setEnvironment r e b.header).state = e.state := rfl
  obtain ⟨hb1, hb2⟩ := beacon_iff r (setEnvironment r e b.header) b.header
  constructor
  · intro e' h
    unfold executeBlock at h
    cases h1 : applyBeaconRoot r (setEnvironment r e b.header) b.header with
    | none => rw [h1] at h; cases h
    | some e1 =>
      rw [h1] at h
      simp only at h
      obtain ⟨hr, he1⟩ := hb1 e1 h1
      cases h2 : executeTransactions r e1 0 b.transactions with
      | none => rw [h2] at h; cases h
      | some eg =>
        obtain ⟨e2, gas⟩ := eg
        rw [h2] at h
        simp only at h
        obtain ⟨g, hg, ht⟩ := (transactions_iff r b.transactions e1 0).1 e2 gas h2
        by_cases hgas : gas = b.header.gasUsed
        · rw [if_pos hgas] at h
          rw [he1] at ht
          rw [hclear, hst] at hr
          simp only [hclear] at ht
          rw [hg, Nat.zero_add] at hgas
          rw [hgas] at ht
          have after : AfterTransactions r b e.state e2.state := ⟨_, _, e1.state, hact, henv, hr, ht⟩
          obtain ⟨s', c, hben, hset⟩ := settle (hp e2.state after)
          rw [hben] at h
          cases h
          exact ⟨e2.state, after, hset c (.refl _)⟩
        · rw [if_neg hgas] at h
          cases h
  · intro s' ⟨s₂, after, hset⟩
    have hpay := hp s₂ after
    obtain ⟨f, env, s₁, ha, hb, hr, ht⟩ := after
    have hf := active_unique ha hact
    have hE := blockEnv_unique hb henv
    subst hf
    subst hE
    rw [← hclear, ← hst] at hr
    rw [← hclear] at ht
    have h1 := hb2 s₁ hr
    obtain ⟨e2, h2, h3⟩ := (transactions_iff r b.transactions { setEnvironment r e b.header with state := s₁ } 0).2 _ s₂ ht
    obtain ⟨s3, c, hben, hset'⟩ := settle (h3.symm ▸ hpay : Payable b e2.state)
    refine ⟨{ e2 with state := increment s3 c }, ?_, ?_⟩
    · unfold executeBlock
      rw [h1]
      simp only
      rw [h2]
      simp only [Nat.zero_add, if_true]
      rw [hben]
    · have := hset' c (.refl _)
      rw [h3] at this
      exact settled_unique this hset

/-- A transaction with set-code authorizations (EIP-7702, in Prague) stops the process. -/
theorem C68_set_code_violated (r : Rules) (e : Evm) (b : Block) (sender : Address) (raw : Nat)
    (h : b.transactions = [(sender, .setCode raw)]) : executeBlock r e b = none := by
  unfold executeBlock
  cases h1 : applyBeaconRoot r (setEnvironment r e b.header) b.header with
  | none => rfl
  | some e1 =>
    simp only
    rw [h]
    rfl

/-- Tracing a transaction does not change how it is executed: at any point of a block, the evm made for tracing is the one
used without tracing. -/
theorem C68_traced (r : Rules) (e : Evm) (b : Block) (done : List (Address × Tx)) (e₁ e₂ : Evm) (gas : Nat) (sender : Address)
    (tx : Tx) (h₁ : applyBeaconRoot r (setEnvironment r e b.header) b.header = some e₁)
    (h₂ : executeTransactions r e₁ 0 done = some (e₂, gas)) :
    (tracedEvm r e₂ sender tx).map (fun e => e.replay r) =
      (modify sender tx e₂.block.number e₂.tx).map (fun env => ({ e₂ with tx := env } : Evm).replay r) := by
  have keep : ∀ (txs : List (Address × Tx)) (e e' : Evm) (g g' : Nat), executeTransactions r e g txs = some (e', g') →
      e'.spec = e.spec ∧ e'.block = e.block := by
    intro txs
    induction txs with
    | nil => intro e e' g g' h; cases h; exact ⟨rfl, rfl⟩
    | cons x txs ih =>
      intro e e' g g' h
      obtain ⟨sender, tx⟩ := x
      unfold executeTransactions at h
      cases hm : modify sender tx e.block.number e.tx with
      | none => rw [hm] at h; cases h
      | some env =>
        rw [hm] at h
        simp only at h
        cases ht : ({ e with tx := env } : Evm).replay r with
        | none => rw [ht] at h; cases h
        | some res =>
          obtain ⟨used, changes⟩ := res
          rw [ht] at h
          exact ih { e with tx := env, state := e.state.commit changes } e' (g + used) g' h
  obtain ⟨k1, k2⟩ := keep done e₁ e₂ 0 gas h₂
  obtain ⟨_, he1⟩ := (beacon_iff r (setEnvironment r e b.header) b.header).1 e₁ h₁
  have hspec : e₂.spec = getSpecId e₂.block.number := by
    rw [k1, k2, he1]; rfl
  have hm : modify sender tx e₂.block.number r.defaultTx = modify sender tx e₂.block.number e₂.tx := by
    apply Option.ext
    intro env
    rw [modify_iff, modify_iff]
  unfold tracedEvm
  rw [hm, Option.map_map]
  congr 1
  funext env
  show r.transact (getSpecId e₂.block.number) e₂.clear e₂.block env e₂.state = r.transact e₂.spec e₂.clear e₂.block env e₂.state
  rw [hspec]

/-! ## Blocks -/

namespace BlockExecutorExample

/-- Payments of one unit to 77, for 21000 gas each; the beacon root contract stores its input. -/
def toy : Rules :=
  { transact := fun _ _ block tx s =>
      if tx.caller = systemAddress then some (0, [(beaconRootsAddress, ⟨0, tx.data⟩), (systemAddress, ⟨0, 1⟩)])
      else if (s tx.caller).balance < tx.value ∨ tx.gasPrice < block.baseFee then none
      else some (21000, [(tx.caller, { s tx.caller with balance := (s tx.caller).balance - tx.value }),
        (77, { s 77 with balance := (s 77).balance + tx.value })])
    defaultTx := ⟨0, 0, 30000000, 0, .call 0, 0, 0, 0, some 1, 0, none, 0, 0, 0⟩ }

def header (n gas : Nat) : Header := ⟨n, 0, 30000000, gas, none, 7, 8, none, 50, some 123⟩

def evm : Evm := ⟨.frontier, false, createBlockEnv (header 9 9), toy.defaultTx, fun a => ⟨if a = 5 then 100 else 0, 0⟩⟩

/-- A block with two uncles, one of them by the same miner. -/
def old : Block := ⟨header 100 42000, some [(50, 99), (60, 97)], none,
  [(5, .legacy 0 1 21000 (.call 77) 3 0 none), (5, .legacy 1 1 21000 (.call 77) 4 0 none)]⟩

/-- A block with withdrawals. -/
def new : Block := ⟨header 19500000 21000, none, some [⟨60, 5⟩, ⟨61, 0⟩, ⟨60, 2⟩], [(5, .eip1559 1 0 21000 9 1 (.call 77) 3 0 0)]⟩

example (s : State) : Payable old s := by
  refine ⟨.inl (by decide), fun us h u hu => by cases h; revert u; decide, ?_, by decide⟩
  have h : daoMoved old s = 0 := if_neg (by decide)
  unfold paidTotal
  rw [h]
  decide

example (s : State) : Payable new s := by
  refine ⟨.inr (by decide), fun us h => (by cases h), ?_, by decide⟩
  have h : daoMoved new s = 0 := if_neg (by decide)
  unfold paidTotal
  rw [h]
  decide

example : ((executeBlock toy evm old).map fun e => [5, 77, 50, 60].map fun a => (e.state a).balance) =
    some [93, 7, 5000000000000000000 + 2 * 156250000000000000 + 4375000000000000000, 3125000000000000000] := by decide +kernel

example : ((executeBlock toy evm new).map fun e => [5, 77, 50, 60, 61].map fun a => (e.state a).balance) =
    some [97, 3, 0, 7000000000, 0] ∧
    ((executeBlock toy evm new).map fun e => ((e.state beaconRootsAddress).rest, (e.state systemAddress).rest)) = some (123, 0) := by
  decide +kernel

/-- The executor is as good as new after these blocks. -/
example : ((executeBlock toy evm new).bind fun e => executeBlock toy e old).isSome = true ∧
    (executeBlock toy evm { old with header := header 100 42001 }).isNone = true := by decide +kernel

end BlockExecutorExample

end Verif.Props
