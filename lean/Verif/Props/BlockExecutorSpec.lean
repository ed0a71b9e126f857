import Verif.Model.BlockExecutor

/-!
# Specification of block execution, after the Ethereum mainnet

When forks become active, who is paid after a block, and what it means to execute a block. The list of DAO accounts is
taken from the model.
-/

namespace Verif.Evm

/-- The first block of each fork on mainnet. -/
def mainnet : List (SpecId × Nat) :=
  [(.frontier, 0), (.frontierThawing, 200000), (.homestead, 1150000), (.daoFork, 1920000), (.tangerine, 2463000),
   (.spuriousDragon, 2675000), (.byzantium, 4370000), (.constantinople, 7280000), (.petersburg, 7280000),
   (.istanbul, 9069000), (.muirGlacier, 9200000), (.berlin, 12244000), (.london, 12965000), (.arrowGlacier, 13773000),
   (.grayGlacier, 15050000), (.merge, 15537394), (.shanghai, 17034870), (.cancun, 19426587), (.prague, 22431084)]

/-- `f` is the latest fork that is active at block `n`. -/
def Active (n : Nat) (f : SpecId) : Prop :=
  (∃ b, (f, b) ∈ mainnet ∧ b ≤ n) ∧ ∀ f' b', (f', b') ∈ mainnet → b' ≤ n → f'.index ≤ f.index

/-! ## Payments -/

/-- The reward for a block, in Wei. -/
def blockReward (n : Nat) : Nat :=
  if n < 4370000 then 5000000000000000000
  else if n < 7280000 then 3000000000000000000
  else if n < 15537394 then 2000000000000000000
  else 0

/-- An uncle is one to seven blocks older. -/
def ValidUncles (b : Block) : Prop := ∀ us, b.uncles = some us → ∀ u ∈ us, u.2 < b.header.number ∧ b.header.number ≤ u.2 + 7

def unclesOf (b : Block) : List (Address × Nat) := b.uncles.getD []
def withdrawalsOf (b : Block) : List Withdrawal := b.withdrawals.getD []

/-- What the miner gets: the reward, and a 32nd of it for each uncle. -/
def minerPay (b : Block) (a : Address) : Nat :=
  if a = b.header.beneficiary then
    blockReward b.header.number + (unclesOf b).length * (blockReward b.header.number / 32) else 0

/-- What the miner of an uncle gets: an eighth of the reward less for each block it is older. -/
def unclePay (b : Block) (u : Address × Nat) : Nat := (8 - (b.header.number - u.2)) * blockReward b.header.number / 8

def unclesPay (b : Block) (a : Address) : Nat := (((unclesOf b).filter fun u => u.1 = a).map (unclePay b)).sum

def withdrawalsPay (b : Block) (a : Address) : Nat :=
  (((withdrawalsOf b).filter fun w => w.address = a).map fun w => w.amount * 1000000000).sum

/-- What the DAO fork moves to its beneficiary. -/
def daoMoved (b : Block) (s : State) : Nat :=
  if b.header.number = 1920000 then (daoAccounts.map fun a => (s a).balance).sum else 0

/-- All that an address is paid after the block. -/
def paid (b : Block) (s : State) (a : Address) : Nat :=
  minerPay b a + unclesPay b a + withdrawalsPay b a + (if a = daoBeneficiary then daoMoved b s else 0)

/-- All that is paid. -/
def paidTotal (b : Block) (s : State) : Nat :=
  minerPay b b.header.beneficiary + ((unclesOf b).map (unclePay b)).sum +
  ((withdrawalsOf b).map fun w => w.amount * 1000000000).sum + daoMoved b s

/-- Balances after the payments; nothing else changes. -/
def Settled (b : Block) (s s' : State) : Prop := ∀ a,
  (s' a).rest = (s a).rest ∧
  (s' a).balance = (if b.header.number = 1920000 ∧ a ∈ daoAccounts then 0 else (s a).balance) + paid b s a

/-- The block is not one of those without a list of uncles, unless it has no reward. All that it pays fits in 128 bits. -/
structure Payable (b : Block) (s : State) : Prop where
  uncles : b.uncles ≠ none ∨ 15537394 ≤ b.header.number
  valid : ValidUncles b
  fits : paidTotal b s < 2 ^ 128
  number : b.header.number < 2 ^ 63

/-! ## Execution -/

/-- The environment of a block: `difficulty` is replaced by randomness from the merge on; the blob price is that of the
rules before Prague. -/
structure BlockEnvOf (h : Header) (env : BlockEnv) : Prop where
  number : env.number = h.number
  timestamp : env.timestamp = h.timestamp
  gasLimit : env.gasLimit = h.gasLimit
  baseFee : env.baseFee = h.baseFee.getD 0
  difficulty : env.difficulty = h.difficulty
  prevrandao : env.prevrandao = if 15537394 ≤ h.number then some h.mixHash else none
  blobExcess : env.blobExcess = h.excessBlobGas.map fun e => (e, decide (22431084 ≤ h.number))
  beneficiary : env.beneficiary = h.beneficiary

/-- The environment of a transaction of a type that exists before Prague. -/
inductive TxEnvOf (n : Nat) (sender : Address) : Tx → TxEnv → Prop
  | legacy (nonce gasPrice gasLimit to value input chainId) :
      TxEnvOf n sender (.legacy nonce gasPrice gasLimit to value input chainId)
        ⟨0, sender, gasLimit, gasPrice, to, value, input, nonce, if 2675000 ≤ n then some 1 else none, 0, none, 0, 0, 0⟩
  | eip2930 (chainId nonce gasPrice gasLimit to value accessList input) :
      TxEnvOf n sender (.eip2930 chainId nonce gasPrice gasLimit to value accessList input)
        ⟨1, sender, gasLimit, gasPrice, to, value, input, nonce, some chainId, accessList, none, 0, 0, 0⟩
  | eip1559 (chainId nonce gasLimit maxFee maxPriority to value accessList input) :
      TxEnvOf n sender (.eip1559 chainId nonce gasLimit maxFee maxPriority to value accessList input)
        ⟨2, sender, gasLimit, maxFee, to, value, input, nonce, some chainId, accessList, some maxPriority, 0, 0, 0⟩
  | eip4844 (chainId nonce gasLimit maxFee maxPriority to value accessList blobs maxBlobFee input) :
      TxEnvOf n sender (.eip4844 chainId nonce gasLimit maxFee maxPriority to value accessList blobs maxBlobFee input)
        ⟨3, sender, gasLimit, maxFee, .call to, value, input, nonce, some chainId, accessList, some maxPriority, blobs, maxBlobFee, 0⟩

/-- The state after some changes: each account has its last change. -/
def Changed (changes : List (Address × Account)) (s s' : State) : Prop :=
  ∀ a, s' a = ((changes.reverse.find? fun c => c.1 = a).map (·.2)).getD (s a)

/-- Before the transactions: from Cancun on, the beacon root contract is called by the system with the root of the parent
beacon block, for free; only the contract itself changes. -/
inductive BeaconRoot (r : Rules) (f : SpecId) (clear : Bool) (h : Header) (env : BlockEnv) : State → State → Prop
  | before (s : State) : h.number < 19426587 → BeaconRoot r f clear h env s s
  | call (s s' : State) (root gas : Nat) (changes : List (Address × Account)) (tx : TxEnv) : 19426587 ≤ h.number →
      h.parentBeaconRoot = some root →
      tx = { r.defaultTx with caller := systemAddress, kind := .call beaconRootsAddress, data := root } →
      r.transact f clear { env with gasLimit := tx.gasLimit, baseFee := 0 } tx s = some (gas, changes) →
      Changed (changes.filter fun c => c.1 = beaconRootsAddress) s s' → BeaconRoot r f clear h env s s'

/-- The transactions, one after the other, and the gas they use. -/
inductive Transactions (r : Rules) (f : SpecId) (clear : Bool) (env : BlockEnv) : List (Address × Tx) → State → Nat → State → Prop
  | nil (s : State) : Transactions r f clear env [] s 0 s
  | cons (sender : Address) (tx : Tx) (rest : List (Address × Tx)) (txEnv : TxEnv) (s s' s'' : State) (used gas : Nat)
      (changes : List (Address × Account)) : TxEnvOf env.number sender tx txEnv →
      r.transact f clear env txEnv s = some (used, changes) → Changed changes s s' →
      Transactions r f clear env rest s' gas s'' → Transactions r f clear env ((sender, tx) :: rest) s (used + gas) s''

/-- The state after the transactions of a block, if they use the gas that the header says. Empty accounts are cleared from
Spurious Dragon on. -/
def AfterTransactions (r : Rules) (b : Block) (s s₂ : State) : Prop :=
  ∃ f env s₁, Active b.header.number f ∧ BlockEnvOf b.header env ∧
    BeaconRoot r f (decide (2675000 ≤ b.header.number)) b.header env s s₁ ∧
    Transactions r f (decide (2675000 ≤ b.header.number)) env b.transactions s₁ b.header.gasUsed s₂

/-- Executing a block. -/
def Executes (r : Rules) (b : Block) (s s' : State) : Prop := ∃ s₂, AfterTransactions r b s s₂ ∧ Settled b s₂ s'

end Verif.Evm
