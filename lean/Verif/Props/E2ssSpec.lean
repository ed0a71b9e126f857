import Verif.Model.E2ss
import Verif.Props.EvmDbSpec
import Verif.Lemmas.E2store

/-! # Specification of state snapshots

A file is a sequence of records (`recordBytes`, C38): version, header, and for each account a record followed by the
records of its storage. -/

namespace Verif.Props.Snapshot
open Verif.E2store hiding Header
open Verif.E2ss Verif.EvmDb Verif.Trie

/-- An account and its storage, in parts. -/
structure Group where
  account : AccountEntry
  parts : List (List StorageItem)
deriving DecidableEq, Repr

/-- All items of the storage. -/
def Group.slots (g : Group) : List StorageItem := g.parts.flatten

/-- As the format asks for: the number of parts is in the record of the account, parts are full except for the last. -/
def Group.WellFormed (g : Group) : Prop :=
  g.account.storageCount.toNat = g.parts.length ∧
  ∀ i p, g.parts[i]? = some p →
    if i + 1 < g.parts.length then p.length = 10000000 else p.length ≤ 10000000

/-- The items of a file in their order. -/
def items (gs : List Group) : List Item := gs.flatMap fun g => .account g.account :: g.parts.map .storage

/-- The record of an item. -/
def itemRecord (c : Codecs) : Item → UInt16 × Bytes
  | .account a => (0x0800, c.account.enc a)
  | .storage l => (0x0900, c.storage.enc l)

/-- The records of a file. -/
def records (c : Codecs) (h : Header) (is : List Item) : List (UInt16 × Bytes) :=
  (0x6532, []) :: (0x0300, c.header.enc h) :: is.map (itemRecord c)

/-- Decoding gives back what was encoded. -/
structure Lawful (c : Codecs) : Prop where
  header : ∀ x, c.header.dec (c.header.enc x) = some x
  account : ∀ x, c.account.dec (c.account.enc x) = some x
  storage : ∀ x, c.storage.dec (c.storage.enc x) = some x

/-! ## What a file says -/

/-- `n` storage records, and the bytes after them. -/
inductive Parts (c : Codecs) : Nat → Bytes → List (List StorageItem) → Bytes → Prop where
  | done (b : Bytes) : Parts c 0 b [] b
  | more {n : Nat} {raw b rest : Bytes} {l : List StorageItem} {ls : List (List StorageItem)} :
      raw.length < 2 ^ 32 → c.storage.dec raw = some l → Parts c n b ls rest →
      Parts c (n + 1) (recordBytes (0x0900, raw) ++ b) (l :: ls) rest

/-- No complete record follows. -/
def Cut (b : Bytes) : Prop :=
  b.length < 8 ∨ ∃ t raw more, raw.length < 2 ^ 32 ∧ more ≠ [] ∧ b ++ more = recordBytes (t, raw)

/-- Accounts with their storage, up to the end. -/
inductive Groups (c : Codecs) : Bytes → List Group → Prop where
  | done {b : Bytes} : Cut b → Groups c b []
  | more {raw b rest : Bytes} {a : AccountEntry} {ps : List (List StorageItem)} {gs : List Group} :
      raw.length < 2 ^ 32 → c.account.dec raw = some a → Parts c a.storageCount.toNat b ps rest → Groups c rest gs →
      Groups c (recordBytes (0x0800, raw) ++ b) (⟨a, ps⟩ :: gs)

/-- A file with this header and these accounts. -/
def Says (c : Codecs) (file : Bytes) (h : Header) (gs : List Group) : Prop :=
  ∃ raw rest, raw.length < 2 ^ 32 ∧ c.header.dec raw = some h ∧ Groups c rest gs ∧
    file = recordBytes (0x6532, []) ++ (recordBytes (0x0300, raw) ++ rest)

/-! ## The state in a file -/

/-- The storage trie of a list of items: the last item of an index counts. -/
def slotContent (lib : Lib) (l : List StorageItem) (k : Id) : Option Bytes :=
  (l.reverse.find? fun i => i.index = k).map fun i => lib.encodeWord i.value

/-- The account trie: the last account of a hash counts. -/
def accountContent (lib : Lib) (gs : List Group) (k : Id) : Option Bytes :=
  (gs.reverse.find? fun g => g.account.addressHash = k).map fun g => lib.encodeAccount g.account.state

/-- Everything hashes to what it should: storage to the storage root of its account, code to the code hash, and accounts
to the state root of the header. -/
def Consistent (lib : Lib) (h : Header) (gs : List Group) : Prop :=
  (∀ g ∈ gs, lib.rootOf (slotContent lib g.slots) = g.account.state.storageRoot ∧
    lib.K g.account.bytecode = g.account.state.codeHash) ∧
  lib.rootOf (accountContent lib gs) = h.stateRoot

/-- One group is the account of an address: record, code, and the slots that are not zero, each once. -/
def IsAccount (lib : Lib) (s : Scope) (w : World) (a : Address) (g : Group) : Prop :=
  g.account.addressHash = lib.K (addressBytes a) ∧
  (∃ i, w.account a = some i ∧ g.account.state.nonce = i.nonce ∧ g.account.state.balance = i.balance ∧
    g.account.state.codeHash = i.codeHash ∧ w.code i.codeHash = some g.account.bytecode) ∧
  (∃ m, SlotMap lib s (w.storage a) m ∧ g.account.state.storageRoot = lib.rootOf m) ∧
  (g.slots.map (·.index)).Nodup ∧
  (∀ x ∈ g.slots, ∃ i ∈ s.slots, x = ⟨lib.K (Id.bytes i), w.storage a i⟩ ∧ w.storage a i ≠ 0) ∧
  ∀ i ∈ s.slots, w.storage a i ≠ 0 → (⟨lib.K (Id.bytes i), w.storage a i⟩ : StorageItem) ∈ g.slots

/-- The groups are the accounts of the state, each once. -/
def Describes (lib : Lib) (s : Scope) (w : World) (gs : List Group) : Prop :=
  (gs.map (·.account.addressHash)).Nodup ∧
  (∀ g ∈ gs, ∃ a ∈ s.addresses, IsAccount lib s w a g) ∧
  ∀ a ∈ s.addresses, w.account a ≠ none → ∃ g ∈ gs, g.account.addressHash = lib.K (addressBytes a)

/-- The code of every account is known, under its hash. -/
def CodesKnown (lib : Lib) (s : Scope) (w : World) : Prop :=
  ∀ a ∈ s.addresses, ∀ i, w.account a = some i →
    ∃ code, (code ∈ s.codes ∨ code = []) ∧ w.code i.codeHash = some code ∧ i.codeHash = lib.K code

/-- Accounts and slots come in the order of their hashes. -/
def Sorted (gs : List Group) : Prop :=
  gs.Pairwise (fun x y => x.account.addressHash.toNat < y.account.addressHash.toNat) ∧
  ∀ g ∈ gs, g.slots.Pairwise fun x y => x.index.toNat < y.index.toNat

open Classical in
/-- The state after an import: all accounts and their storage, the codes of these accounts, and the hashes of blocks. -/
noncomputable def restored (lib : Lib) (w : World) (hashes : UInt64 → Option Id) : World where
  account := w.account
  storage := w.storage
  code h := if h = lib.K [] ∨ h = 0 then some []
    else if ∃ a i, w.account a = some i ∧ i.codeHash = h then w.code h
    else none
  blockHash := hashes

/-- The hashes of a block and the 256 before it. -/
def lastHashes (hash : UInt64 → Id) (number : UInt64) (n : UInt64) : Option Id :=
  if n.toNat ≤ number.toNat ∧ number.toNat ≤ n.toNat + 256 then some (hash n) else none

/-- The content of a trie in the order of its keys. -/
def Lists (l : List (Id × Bytes)) (m : Id → Option Bytes) : Prop :=
  l.Pairwise (fun x y => x.1.toNat < y.1.toNat) ∧ ∀ k v, (k, v) ∈ l ↔ m k = some v

/-- What is expected of the iterators: they list the content of the trie, if it is finite. -/
structure IterSound (lib : Lib) (it : Iter) (Holds : Nodes → (Id → Option Bytes) → Prop) : Prop where
  accounts : ∀ m (keys : List Id), (∀ k, m k ≠ none → k ∈ keys) → Lists (it.accounts m) m
  slots : ∀ nodes m (keys : List Id), Holds nodes m → (∀ k, m k ≠ none → k ∈ keys) → (∃ k, m k ≠ none) →
    ∃ l, it.slots nodes (lib.rootOf m) = some l ∧ Lists l m

/-- The records of accounts (with codes of this scope) and of storage have less than 4 GiB. -/
structure Sizes (c : Codecs) (s : Scope) : Prop where
  account : ∀ a, (a.bytecode ∈ s.codes ∨ a.bytecode = []) → (c.account.enc a).length + 8 < 2 ^ 32
  storage : ∀ l, l.length ≤ 10000000 → (c.storage.enc l).length + 8 < 2 ^ 32
  slots : s.slots.length < 2 ^ 32

end Verif.Props.Snapshot
