import Verif.Model.StateContent

/-! # Walking a trie, and the state bridge

`bin/trin-execution/src/trie_walker/{mod,filter,db}.rs`, `bin/trin-execution/src/{content,utils}.rs`,
`bin/trin-execution/src/types/trie_proof.rs`, the gossip of a state snapshot in
`bin/portal-bridge/src/bridge/state.rs` and the bridge id in `bin/portal-bridge/src/cli.rs`. -/

namespace Verif.TrieWalker
open Verif.Trie Verif.StateContent

/-- `TrieProof` (trie_proof.rs:5-9). -/
structure Proof where
  path : List UInt8
  proof : List Bytes
deriving DecidableEq, Repr

/-- Bytes of `nibbles_to_right_padded_b256` (utils.rs:14-24) without the padding. -/
def packRight : List UInt8 → Bytes
  | [] => []
  | [a] => [a <<< 4]
  | a :: b :: rest => ((a <<< 4) ||| b) :: packRight rest

/-- `nibbles_to_right_padded_b256` as a number; `none` is the index out of range for more than 64 nibbles. -/
def padded (nibbles : List UInt8) : Option Nat :=
  if nibbles.length > 64 then none
  else some (fromBe (packRight nibbles ++ List.replicate (32 - (packRight nibbles).length) 0))

/-- `full_nibble_path_to_address_hash` (utils.rs:3-12); `none` is the panic. -/
def addressHash (nibbles : List UInt8) : Option Id :=
  if nibbles.length ≠ 64 then none else (padded nibbles).map (BitVec.ofNat 256)

/-- `U256::MAX`. -/
def maxU256 : Nat := 2 ^ 256 - 1

/-- `Filter` (filter.rs:6-10). -/
structure Filter where
  start : Nat
  stop : Nat
deriving DecidableEq, Repr

/-- `Filter::new` (filter.rs:15-39), with the wrapping arithmetic of `U256`; `none` is the failed assertion. -/
def Filter.new (index count : UInt16) : Option Filter :=
  if count = 0 ∨ count = 1 then some ⟨0, maxU256⟩
  else if index < count then
    let size := maxU256 / count.toNat + 1
    let start := index.toNat * size % 2 ^ 256
    let stop := if index = count - 1 then maxU256 else (start + size - 1) % 2 ^ 256
    some ⟨start, stop⟩
  else none

/-- `Filter::contains` (filter.rs:54-63); `none` is the panic for more than 64 nibbles (the subtraction in line 57, or
the index in line 60). -/
def Filter.contains (f : Filter) (path : List UInt8) : Option Bool :=
  if path.length > 64 then none
  else
    let shift := 256 - path.length * 4
    let lo := (f.start >>> shift) <<< shift
    let hi := (f.stop >>> shift) <<< shift
    (padded path).map fun p => decide (lo ≤ p ∧ p ≤ hi)

/-- `TrieWalkerDb::get` (db.rs:8-32): `none` is an error, `some none` a missing key. -/
abbrev Db := Id → Option (Option Bytes)

/-- `TrieWalker` (mod.rs:22-29); the top of the stack is the head of the list. -/
structure Walker where
  isPartial : Bool
  db : Db
  stack : List Proof
  filter : Option Filter

/-- `TrieWalker::new` (mod.rs:32-48); `none` is an error. -/
def Walker.new (root : Id) (db : Db) (filter : Option Filter) : Option Walker :=
  match db root with
  | some (some node) => some ⟨false, db, [⟨[], [node]⟩], filter⟩
  | _ => none

/-- `TrieWalker::new_partial_trie` (mod.rs:50-77). -/
def Walker.newPartial (root : Id) (db : Db) : Option Walker :=
  match db root with
  | some (some node) => some ⟨true, db, [⟨[], [node]⟩], none⟩
  | some none => some ⟨true, db, [], none⟩
  | none => none

/-- The filter check (mod.rs:86-90). -/
def Walker.admits (w : Walker) (path : List UInt8) : Option Bool :=
  match w.filter with
  | none => some true
  | some f => f.contains path

/-- The node of a hash (mod.rs:95-115): `none` is an error, `some none` that there is nothing to push. -/
def Walker.fetch (env : Env) (w : Walker) (hash : Id) : Option (Option Bytes) :=
  match w.db hash with
  | none => none
  | some none => if w.isPartial then some none else none
  | some (some encoded) =>
    match env.decode encoded with
    | none => none
    | some .empty => none
    | some (.hash _) => none
    | some _ => some (some encoded)

/-- `process_node` (mod.rs:79-122); `none` is an error or the panic of the filter. -/
def Walker.process (env : Env) (w : Walker) (node : Node) (partialProof : List Bytes) (path : List UInt8) :
    Option Walker :=
  match w.admits path with
  | none => none
  | some false => some w
  | some true =>
    match node with
    | .hash hash =>
      match w.fetch env hash with
      | none => none
      | some none => some w
      | some (some encoded) => some { w with stack := ⟨path, partialProof ++ [encoded]⟩ :: w.stack }
    | _ => some w

/-- The loop over the children of a branch, the last child first (mod.rs:156-163). -/
def Walker.processChildren (env : Env) (children : Fin 16 → Node) (proof : List Bytes) (path : List UInt8) :
    List (Fin 16) → Walker → Option Walker
  | [], w => some w
  | i :: rest, w =>
    match w.process env (children i) proof (path ++ [UInt8.ofNat i.val]) with
    | none => none
    | some w => w.processChildren env children proof path rest

/-- `Iterator::next` (mod.rs:128-170): `none` is a panic, `some (none, _)` the end. -/
def Walker.next (env : Env) (w : Walker) : Option (Option Proof × Walker) :=
  match w.stack with
  | [] => some (none, w)
  | top :: rest =>
    match top.proof.getLast? with
    | none => none
    | some last =>
      match env.decode last with
      | none => none
      | some (.extension pre node) =>
        ({ w with stack := rest }.process env node top.proof (top.path ++ pre)).map fun w => (some top, w)
      | some (.branch children _) =>
        ({ w with stack := rest }.processChildren env children top.proof top.path (List.finRange 16).reverse).map
          fun w => (some top, w)
      | some _ => some (some top, { w with stack := rest })

/-- What the first `n` calls of `next` give: `none` if one panics; the second part is the state after them. -/
def Walker.take (env : Env) : Nat → Walker → Option (List Proof × Walker)
  | 0, w => some ([], w)
  | n + 1, w =>
    match w.next env with
    | none => none
    | some (none, w) => some ([], w)
    | some (some p, w) => (Walker.take env n w).map fun r => (p :: r.1, r.2)

/-- The whole iteration: `none` if it panics or does not end within `n` calls. -/
def Walker.all (env : Env) (n : Nat) (w : Walker) : Option (List Proof) :=
  match w.take env n with
  | some (out, w) => if w.stack = [] then some out else none
  | none => none

/-! ## Content (content.rs) -/

/-- `From<&TrieProof> for EncodedTrieProof` (trie_proof.rs:11-21). `VariableList::from` drops what is above its
limit. -/
def Proof.encoded (p : Proof) : List Bytes := (p.proof.map (List.take maxNode)).take maxProof

/-- `create_account_content_key` (content.rs:17-27). -/
def accountKey (env : Env) (p : Proof) : Option ContentKey.State :=
  match p.proof.getLast? with
  | none => none
  | some last => (Nibbles.tryFromUnpacked p.path).map fun path => .accountTrieNode path (env.K last)

/-- `create_account_content_value` (content.rs:29-39). -/
def accountValue (blockHash : Id) (p : Proof) : Value := .accountTrieNode p.encoded blockHash

/-- `create_contract_content_key` (content.rs:41-49). -/
def codeKey (address code : Id) : ContentKey.State := .bytecode address code

/-- `create_contract_content_value` (content.rs:51-63). -/
def codeValue (blockHash : Id) (account : Proof) (code : Bytes) : Value :=
  .bytecodeWithProof (code.take maxCode) account.encoded blockHash

/-- `create_storage_content_key` (content.rs:65-82). -/
def storageKey (env : Env) (p : Proof) (address : Id) : Option ContentKey.State :=
  match p.proof.getLast? with
  | none => none
  | some last => (Nibbles.tryFromUnpacked p.path).map fun path => .storageTrieNode address path (env.K last)

/-- `create_storage_content_value` (content.rs:84-95). -/
def storageValue (blockHash : Id) (account storage : Proof) : Value :=
  .storageTrieNode storage.encoded account.encoded blockHash

/-! ## The state bridge -/

/-- `BridgeId` (cli.rs:195-200), with the checks of `from_str` (cli.rs:218-236) on the parsed numbers. -/
structure BridgeId where
  id : Nat
  total : Nat
deriving DecidableEq, Repr

def BridgeId.parse (id total : Nat) : Option BridgeId :=
  if id > total then none
  else if id = 0 ∨ total = 0 then none
  else some ⟨id, total⟩

/-- `is_selected` (cli.rs:206-212). -/
def BridgeId.isSelected (b : BridgeId) (index : Nat) : Bool :=
  if b.total = 1 then true else index % b.total = b.id - 1

/-- The state that is gossiped: the trie, codes by hash, storage tries by address hash (`EvmDB`, `AccountDB`). -/
structure Source where
  trie : Db
  code : Id → Option Bytes
  storage : Id → Db

/-- One content item: key and value. -/
abbrev Item := ContentKey.State × Value

/-- `keccak256([])`, `EMPTY_ROOT_HASH`. -/
structure Empty where
  code : Id
  root : Id

variable (env : Env) (empty : Empty) (src : Source) (blockHash : Id)

/-- The items of the storage of an account (state.rs:426-442). -/
def storageItems (fuel : Nat) (account : Proof) (address root : Id) : Option (List Item) :=
  if root = empty.root then some []
  else
    match Walker.new root (src.storage address) none with
    | none => none
    | some w =>
      match w.all env fuel with
      | none => none
      | some proofs => proofs.mapM fun p => (storageKey env p address).map fun k => (k, storageValue blockHash account p)

/-- The item of the code of an account (state.rs:410-423). -/
def codeItems (account : Proof) (address code : Id) : Option (List Item) :=
  if code = empty.code then some []
  else (src.code code).map fun c => [(codeKey address code, codeValue blockHash account c)]

/-- The account in a leaf: value decoded, key completed to the address hash (state.rs:379-386). -/
def leafAccount (p : Proof) (key : List UInt8) (value : Bytes) : Option (Id × Account) :=
  match env.decodeAccount value with
  | none => none
  | some a => (addressHash (p.path ++ key.dropLast)).map fun h => (h, a)

/-- The items for one node of the account trie: itself, and for a leaf the code and the storage of the account
(state.rs:365-443). -/
def nodeItems (fuel : Nat) (p : Proof) : Option (List Item) :=
  match accountKey env p with
  | none => none
  | some key =>
    match p.proof.getLast?.bind env.decode with
    | none => none
    | some (.leaf k value) =>
      match leafAccount env p k value with
      | none => none
      | some (address, a) =>
        match codeItems empty src blockHash p address a.codeHash, storageItems env empty src blockHash fuel p address a.storageRoot with
        | some code, some storage => some ((key, accountValue blockHash p) :: (code ++ storage))
        | _, _ => none
    | some _ => some [(key, accountValue blockHash p)]

/-- All items of `gossip_whole_state_snapshot` (state.rs:350-448), in the order of `content_idx`; `none` is an error or
a panic, or that a walk does not end within `fuel` calls. Progress reports are left out. Keys and values are made for
all items here; the code makes them for the selected ones only. -/
def snapshotItems (fuel : Nat) (root : Id) : Option (List Item) :=
  match Walker.new root src.trie none with
  | none => none
  | some w =>
    match w.all env fuel with
    | none => none
    | some proofs => (proofs.mapM (nodeItems env empty src blockHash fuel)).map List.flatten

/-- What one bridge offers: the items whose index it is responsible for (state.rs:450-501). -/
def offered (b : BridgeId) (items : List Item) : List Item :=
  (items.zipIdx.filter fun x => b.isSelected x.2).map (·.1)

end Verif.TrieWalker
