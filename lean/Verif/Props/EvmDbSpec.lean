import Verif.Model.EvmDb

/-! # Specification of the execution database -/

namespace Verif.EvmDb
open Verif.Trie

/-- The state of the chain as plain maps. -/
structure World where
  account : Address → Option Info
  storage : Address → Word → Word
  code : Id → Option Bytes
  blockHash : UInt64 → Option Id

variable (lib : Lib)

def World.initial : World :=
  { account := fun _ => none
    storage := fun _ _ => 0
    code := fun h => if h = lib.K [] ∨ h = 0 then some [] else none
    blockHash := fun _ => none }

/-- An account is written, or deleted with its storage. -/
def World.setAccount (w : World) (a : Address) (i : Option Info) : World :=
  { w with
    account := fun b => if b = a then i else w.account b
    storage := fun b => if b = a ∧ i = none then fun _ => 0 else w.storage b }

def World.wipe (w : World) (a : Address) : World :=
  { w with storage := fun b => if b = a then fun _ => 0 else w.storage b }

def World.setSlot (a : Address) (w : World) (s : Word × Word) : World :=
  { w with storage := fun b => if b = a then fun i => if i = s.1 then s.2 else w.storage a i else w.storage b }

/-- Storage is wiped if asked for, then slots are set. An account that has none gets an empty record. -/
def World.change (w : World) (c : Changeset) : World :=
  let w := if c.wipe then w.wipe c.address else w
  if c.slots = [] then w
  else
    let w := if w.account c.address = none then w.setAccount c.address (some ⟨0, 0, lib.K []⟩) else w
    c.slots.foldl (World.setSlot c.address) w

def World.deploy (w : World) (c : Id × Bytes) : World :=
  { w with code := fun h => if h = c.1 then some c.2 else w.code h }

def World.commit (w : World) (b : Bundle) : World :=
  b.storage.foldl (World.change lib) (b.contracts.foldl World.deploy (b.accounts.foldl (fun w e => w.setAccount e.1 e.2) w))

/-- Genesis accounts have a balance only. -/
def World.genesis (w : World) (alloc : List (Address × Word)) : World :=
  alloc.foldl (fun w e => (w.setAccount e.1 (some ⟨0, e.2, lib.K []⟩)).wipe e.1) w

/-- A block was executed: its hash is known, the one 256 blocks before is not any more. -/
def World.block (w : World) (number : UInt64) (hash : Id) : World :=
  { w with blockHash := fun n =>
      if number ≥ 256 ∧ n = number - 256 then none else if n = number then some hash else w.blockHash n }

def World.step (w : World) : Op → World
  | .genesis alloc => w.genesis lib alloc
  | .bundle b => w.commit lib b
  | .trie _ => w
  | .block n h => w.block n h
  | .clearCache => w

def world (ops : List Op) : World := ops.foldl (World.step lib) (World.initial lib)

/-! ## The library -/

/-- The content of a trie after insertions and removals. -/
def applyChanges (m : Id → Option Bytes) (cs : List (Id × Option Bytes)) : Id → Option Bytes :=
  cs.foldl (fun m c h => if h = c.1 then c.2 else m h) m

/-- The nodes after a commit. -/
def Delta.apply (d : Delta) (nodes : Nodes) : Nodes :=
  d.removed.foldl (fun n r h => if h = r then none else n h) (d.inserted.foldl (fun n e h => if h = e.1 then some e.2 else n h) nodes)

/-- What is expected of `eth_trie` and RLP: nodes of a database can hold the content of a trie; then reads give that
content, and updates give nodes that hold the updated content, with the root of that content. -/
structure Lib.Sound (lib : Lib) (Holds : Nodes → (Id → Option Bytes) → Prop) : Prop where
  account : ∀ a, lib.decodeAccount (lib.encodeAccount a) = some a
  word : ∀ w, lib.decodeWord (lib.encodeWord w) = some w
  empty : ∀ nodes, Holds nodes fun _ => none
  emptyRoot : lib.rootOf (fun _ => none) = lib.emptyRoot
  otherRoot : ∀ nodes m, Holds nodes m → (∃ k, m k ≠ none) → lib.rootOf m ≠ lib.emptyRoot
  get : ∀ nodes m, Holds nodes m → (∃ k, m k ≠ none) → ∀ k, lib.get nodes (lib.rootOf m) k = some (m k)
  update : ∀ nodes m cs, Holds nodes m →
    ∃ d, lib.update nodes (if lib.rootOf m = lib.emptyRoot then none else some (lib.rootOf m)) cs = some d ∧
      d.root = lib.rootOf (applyChanges m cs) ∧ Holds (d.apply nodes) (applyChanges m cs) ∧
      (∀ e ∈ d.inserted, e.1 ≠ lib.K []) ∧ ∀ h ∈ d.removed, h ≠ lib.K []
  clear : ∀ nodes m, Holds nodes m → (∃ k, m k ≠ none) → ∃ removed, lib.clear nodes (lib.rootOf m) = some removed

/-! ## What a history names -/

/-- The addresses, storage slots, codes, trie nodes and block numbers that are in play. -/
structure Scope where
  addresses : List Address
  slots : List Word
  codes : List Bytes
  nodes : List Bytes
  numbers : List UInt64

/-- The byte strings that are hashed. -/
def Scope.preimages (s : Scope) : List Bytes :=
  [] :: (s.addresses.map addressBytes ++ s.slots.map Id.bytes ++ s.codes ++ s.nodes ++ s.numbers.map numberBytes)

/-- The scope has everything that the operation names, and codes come with their hash. -/
def Scope.Covers (s : Scope) : Op → Prop
  | .genesis alloc => ∀ e ∈ alloc, e.1 ∈ s.addresses
  | .bundle b => (∀ e ∈ b.accounts, e.1 ∈ s.addresses) ∧ (∀ c ∈ b.contracts, c.1 = lib.K c.2 ∧ c.2 ∈ s.codes) ∧
      ∀ c ∈ b.storage, c.address ∈ s.addresses ∧ ∀ e ∈ c.slots, e.1 ∈ s.slots
  | .trie nodes => ∀ n ∈ nodes, n ∈ s.nodes
  | .block n _ => n ∈ s.numbers ∧ (n ≥ 256 → n - 256 ∈ s.numbers)
  | .clearCache => True

/-- There is no hash collision between the things in play, and none of them hashes to zero. -/
def Scope.NoCollision (s : Scope) : Prop :=
  (∀ x ∈ s.preimages, ∀ y ∈ s.preimages, lib.K x = lib.K y → x = y) ∧ ∀ x ∈ s.preimages, lib.K x ≠ 0

/-- Nodes of the account trie have more than 32 bytes. -/
def Scope.LargeNodes (s : Scope) : Prop := ∀ n ∈ s.nodes, 32 < n.length

/-- No code is, byte for byte, one of the addresses or a block number in 32 bytes. -/
def Scope.CodesApart (s : Scope) : Prop :=
  ∀ c ∈ s.codes, (∀ a ∈ s.addresses, c ≠ addressBytes a) ∧ ∀ n ∈ s.numbers, c ≠ numberBytes n

/-- A storage trie has this content: the hashed slots that are not zero, with their values. -/
def SlotMap (s : Scope) (storage : Word → Word) (m : Id → Option Bytes) : Prop :=
  (∀ i ∈ s.slots, m (lib.K (Id.bytes i)) = if storage i = 0 then none else some (lib.encodeWord (storage i))) ∧
  ∀ h, m h ≠ none → ∃ i ∈ s.slots, h = lib.K (Id.bytes i)

/-- A state trie has this content: the hashed addresses that have an account, with the account and the root of its
storage trie. -/
def StateMap (s : Scope) (w : World) (m : Id → Option Bytes) : Prop :=
  (∀ a ∈ s.addresses, ∃ slots, SlotMap lib s (w.storage a) slots ∧
    m (lib.K (addressBytes a)) =
      (w.account a).map fun i => lib.encodeAccount ⟨i.nonce, i.balance, lib.rootOf slots, i.codeHash⟩) ∧
  ∀ h, m h ≠ none → ∃ a ∈ s.addresses, h = lib.K (addressBytes a)

/-- The blocks of a history. -/
def blocksOf (ops : List Op) : List (UInt64 × Id) :=
  ops.filterMap fun op => match op with
    | .block n h => some (n, h)
    | _ => none

/-- Blocks are executed one after the other from number `1` on. -/
def Consecutive (blocks : List (UInt64 × Id)) : Prop :=
  blocks.length < 2 ^ 64 - 1 ∧ ∀ k b, blocks[k]? = some b → b.1.toNat = k + 1

end Verif.EvmDb
