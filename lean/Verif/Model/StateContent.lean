import Verif.Model.Trie
import Verif.Model.Ssz
import Verif.Model.ContentKey

/-! # State content values and their validation
(crates/ethportal-api/src/types/content_value/state.rs,
crates/subnetworks/state/src/validation/validator.rs) -/

namespace Verif.StateContent
open Verif.Trie Verif.Ssz

/-- `StateContentValue` (content_value/state.rs:16-27). A proof is a list of encoded nodes. -/
inductive Value where
  | trieNode (node : Bytes)
  | accountTrieNode (proof : List Bytes) (blockHash : Id)
  | storageTrieNode (storageProof accountProof : List Bytes) (blockHash : Id)
  | bytecode (code : Bytes)
  | bytecodeWithProof (code : Bytes) (accountProof : List Bytes) (blockHash : Id)
deriving DecidableEq, Repr

/-- `EncodedTrieNode` is a `ByteList1024` (state_trie/mod.rs:19). -/
def maxNode : Nat := 1024
/-- `TrieProof` has at most 65 nodes (state_trie/mod.rs:61). -/
def maxProof : Nat := 65
/-- `ByteCode` is a `ByteList32K` (state_trie/mod.rs:64). -/
def maxCode : Nat := 32768

/-- `StateContentValue::encode` (content_value/state.rs:32-40), with the derived `Encode` of the five
structs (76-116). -/
def Value.encode : Value → Bytes
  | .trieNode n => encodeContainer [.var] [n]
  | .accountTrieNode p b => encodeContainer [.var, .fixed 32] [encodeVarList p, b.bytes]
  | .storageTrieNode s a b =>
    encodeContainer [.var, .var, .fixed 32] [encodeVarList s, encodeVarList a, b.bytes]
  | .bytecode c => encodeContainer [.var] [c]
  | .bytecodeWithProof c a b =>
    encodeContainer [.var, .var, .fixed 32] [c, encodeVarList a, b.bytes]

/-- `TrieProof::from_ssz_bytes`. -/
def decodeProof (bs : Bytes) : Option (List Bytes) :=
  (decodeVarList maxProof bs).bind fun ns => ns.mapM (decodeByteList maxNode)

/-- `B256::from_ssz_bytes` of a field of 32 bytes. -/
def decodeHash (bs : Bytes) : Id := BitVec.ofNat 256 (fromBe bs)

def decodeTrieNode (bs : Bytes) : Option Value :=
  match decodeContainer [.var] bs with
  | some [n] => (decodeByteList maxNode n).map .trieNode
  | _ => none

def decodeAccountTrieNode (bs : Bytes) : Option Value :=
  match decodeContainer [.var, .fixed 32] bs with
  | some [p, b] => (decodeProof p).map fun p => .accountTrieNode p (decodeHash b)
  | _ => none

def decodeStorageTrieNode (bs : Bytes) : Option Value :=
  match decodeContainer [.var, .var, .fixed 32] bs with
  | some [s, a, b] =>
    (decodeProof s).bind fun s => (decodeProof a).map fun a => .storageTrieNode s a (decodeHash b)
  | _ => none

def decodeBytecode (bs : Bytes) : Option Value :=
  match decodeContainer [.var] bs with
  | some [c] => (decodeByteList maxCode c).map .bytecode
  | _ => none

def decodeBytecodeWithProof (bs : Bytes) : Option Value :=
  match decodeContainer [.var, .var, .fixed 32] bs with
  | some [c, a, b] =>
    (decodeByteList maxCode c).bind fun c =>
      (decodeProof a).map fun a => .bytecodeWithProof c a (decodeHash b)
  | _ => none

/-- `StateContentValue::decode` (content_value/state.rs:42-73): the variant with proof first. -/
def Value.decode (key : ContentKey.State) (bs : Bytes) : Option Value :=
  match key with
  | .accountTrieNode .. => (decodeAccountTrieNode bs).or (decodeTrieNode bs)
  | .storageTrieNode .. => (decodeStorageTrieNode bs).or (decodeTrieNode bs)
  | .bytecode .. => (decodeBytecodeWithProof bs).or (decodeBytecode bs)

/-- `ValidationResult` (crates/validation/src/validator.rs). -/
inductive Result where
  | valid
  | canonicallyValid
  | invalid
deriving DecidableEq, Repr

variable (env : Env)

/-- `validate_account_trie_node` (validator.rs:68-91). The state root is never looked up:
`DISABLE_LEGACY_HISTORY_HEADER_CHECK` is `true` (line 26). -/
def validateAccountTrieNode (path : Bytes) (nodeHash : Id) : Value → Except Err Result
  | .trieNode n => (checkNodeHash env n nodeHash).map fun _ => .valid
  | .accountTrieNode proof _ =>
    (validateNodeTrieProof env none nodeHash path proof).map fun _ => .canonicallyValid
  | _ => .error .invalidContentValueType

/-- `validate_contract_storage_trie_node` (validator.rs:93-123). -/
def validateStorageTrieNode (addressHash : Id) (path : Bytes) (nodeHash : Id) :
    Value → Except Err Result
  | .trieNode n => (checkNodeHash env n nodeHash).map fun _ => .valid
  | .storageTrieNode storageProof accountProof _ =>
    match validateAccountState env none addressHash accountProof with
    | .error e => .error e
    | .ok account =>
      (validateNodeTrieProof env (some account.storageRoot) nodeHash path storageProof).map
        fun _ => .canonicallyValid
  | _ => .error .invalidContentValueType

/-- `validate_contract_bytecode` (validator.rs:125-170). -/
def validateBytecode (addressHash codeHash : Id) : Value → Except Err Result
  | .bytecode code => if env.K code = codeHash then .ok .valid else .error .invalidBytecodeHash
  | .bytecodeWithProof code accountProof _ =>
    if env.K code ≠ codeHash then .error .invalidBytecodeHash
    else
      match validateAccountState env none addressHash accountProof with
      | .error e => .error e
      | .ok account =>
        if account.codeHash = codeHash then .ok .canonicallyValid else .error .invalidBytecodeHash
  | _ => .error .invalidContentValueType

def validateValue (key : ContentKey.State) (v : Value) : Except Err Result :=
  match key with
  | .accountTrieNode path nodeHash => validateAccountTrieNode env path nodeHash v
  | .storageTrieNode addressHash path nodeHash => validateStorageTrieNode env addressHash path nodeHash v
  | .bytecode addressHash codeHash => validateBytecode env addressHash codeHash v

/-- `StateValidator::validate_content` (validator.rs:33-64). A panic of the traversal would abort the
task; it is kept apart as `none`. -/
def validateContent (key : ContentKey.State) (bs : Bytes) : Option Result :=
  match Value.decode key bs with
  | none => some .invalid
  | some v =>
    match validateValue env key v with
    | .ok r => some r
    | .error .panic => none
    | .error _ => some .invalid

end Verif.StateContent
