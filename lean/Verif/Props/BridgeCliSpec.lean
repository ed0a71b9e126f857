import Verif.Model.BridgeCli
import Verif.Props.NodeConfigSpec

/-! # C76: what the command line of the bridge asks for -/

namespace Verif.Props.BridgeSpec
open Verif.BridgeCli
open Verif.TrieWalker (BridgeId)
open Verif.Capacity (Subnetwork)
open Verif.Events (Network)
open Verif.Props.StartSpec (nameOf networkName)

/-- The text is decimal digits, perhaps with a plus sign in front, of a number of 64 bits. -/
def Numeral (text : List Char) (n : Nat) : Prop :=
  ∃ digits : List Char, digits ≠ [] ∧ (∀ c ∈ digits, '0' ≤ c ∧ c ≤ '9') ∧
    n = digits.foldl (fun a c => 10 * a + (c.toNat - '0'.toNat)) 0 ∧ n < 2 ^ 64 ∧
    (text = digits ∨ text = '+' :: digits)

/-- Pieces with a separator between them. -/
def between (sep : Char) : List (List Char) → List Char
  | [] => []
  | [s] => s
  | s :: t :: rest => s ++ sep :: between sep (t :: rest)

/-- The texts of the modes. -/
def ModeText (text : List Char) : Mode → Prop
  | .latest => text = "latest".toList
  | .e2hs => text = "e2hs".toList
  | .ephemeralHistory => text = "ephemeral-history".toList
  | .single (.blockRange a b) =>
    ∃ x y, Numeral x a ∧ Numeral y b ∧ a ≤ b ∧ text = "single:r".toList ++ (x ++ '-' :: y)
  | .snapshot n => ∃ x, Numeral x n ∧ text = "snapshot:".toList ++ x

/-- The texts of a block range: `a-b`, and `a-` for "to the end". -/
def RangeText (text : List Char) (r : BlockRange) : Prop :=
  ∃ x, Numeral x r.start ∧
    match r.last with
    | none => text = x ++ ['-']
    | some b => ∃ y, Numeral y b ∧ text = x ++ '-' :: y

/-- The text of a bridge: which of how many. -/
def IdText (text : List Char) (b : BridgeId) : Prop :=
  1 ≤ b.id ∧ b.id ≤ b.total ∧ ∃ x y, Numeral x b.id ∧ Numeral y b.total ∧ text = x ++ '/' :: y

/-- The settings are the ones that the flags mean, or the defaults. -/
structure Means (f : Flags) (c : Config) : Prop where
  mode : ModeText (f.mode.getD "latest".toList) c.mode
  noRange : f.e2hsRange = none → c.e2hsRange = none
  range : ∀ t ∈ f.e2hsRange, ∃ r, RangeText t r ∧ c.e2hsRange = some r
  subnetwork : (nameOf c.subnetwork).toList = f.subnetwork.getD "legacy_history".toList
  network : (networkName c.network).toList = f.network.getD "mainnet".toList
  id : IdText (f.bridgeId.getD "1/1".toList) c.bridgeId
  limit : c.offerLimit = f.offerLimit.getD 64

/-- The combinations that there are bridges for. State is only executed up to the merge. -/
inductive Works (c : Config) : Bridge → Prop
  | beacon (s : c.subnetwork = .beacon) (m : c.mode = .latest) : Works c .beacon
  | e2hs (s : c.subnetwork = .legacyHistory) (m : c.mode = .e2hs) (range) (r : c.e2hsRange = some range) :
      Works c (.e2hs range c.offerLimit)
  | ephemeral (s : c.subnetwork = .legacyHistory) (m : c.mode = .ephemeralHistory) :
      Works c (.ephemeralHistory c.offerLimit (c.offerLimit / 2))
  | range (s : c.subnetwork = .state) (a b) (m : c.mode = .single (.blockRange a b)) (h : b ≤ 15537394) :
      Works c (.stateRange a b c.bridgeId c.offerLimit)
  | snapshot (s : c.subnetwork = .state) (n) (m : c.mode = .snapshot n) (h : 1 ≤ n) :
      Works c (.stateSnapshot n c.bridgeId c.offerLimit)

/-- What the node of a bridge runs: its subnetwork and what that needs, without storage and, but for beacon, with
radius zero; no RPC server. -/
structure BridgeNode (c : Config) (n : NodeConfig.Node) : Prop where
  beacon : n.beacon = some ⟨0, 2 ^ 256 - 1⟩
  legacyHistory : n.legacyHistory = if c.subnetwork = .beacon then none else some ⟨0, 0⟩
  state : n.state = if c.subnetwork = .state then some ⟨0, 0⟩ else none
  rpc : n.rpc = none

end Verif.Props.BridgeSpec
