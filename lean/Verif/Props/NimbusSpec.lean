import Verif.Model.Nimbus
import Verif.Props.LightNodeSpec
import Verif.Props.LcJsonSpec

/-! # Specification for C109: the stand-alone light client over HTTP -/

namespace Verif.Props.NimbusSpec
open Verif.JsonRpc (Json)
open Verif.LcJson (Lib)
open Verif.LightNode (Slot)
open Verif.Props.BridgeSpec (Numeral)
open Verif.Props.LcJsonSpec
open scoped Verif.Provider

/-! ## Documents -/

/-- An object with the data `x`, and whatever else. -/
def DataJson {α : Type} (P : Json → α → Prop) (j : Json) (x : α) : Prop := IsObject false [needed (chars% "data") (P · x)] j

/-- The specification of a chain, as far as it is used: its number as a text of decimal digits. -/
def ChainJson (j : Json) (n : Nat) : Prop :=
  IsObject false [needed (chars% "DEPOSIT_NETWORK_ID") fun v => ∃ t, v = .str t ∧ Numeral t n] j

def TextJson (j : Json) (t : List Char) : Prop := j = .str t

/-- A slot of a checkpoint service. -/
def SlotJson (lib : Lib) (j : Json) (x : Slot) : Prop :=
  ∃ (slot epoch : UInt64) (state : Option Id) (t u : List Char), x.slot = slot.toNat ∧ x.epoch = epoch.toNat ∧
    IsObject false [needed (chars% "slot") (IsNumber lib · slot), optional (chars% "block_root") (IsWord lib) x.blockRoot,
      optional (chars% "state_root") (IsWord lib) state, needed (chars% "epoch") (IsNumber lib · epoch),
      needed (chars% "time") (IsObject false [needed (chars% "start_time") (TextJson · t), needed (chars% "end_time") (TextJson · u)])] j

/-- The slots of a checkpoint service. -/
def SlotsJson (lib : Lib) (j : Json) (xs : List Slot) : Prop :=
  DataJson (fun v xs => IsObject false [needed (chars% "slots") (IsArray (SlotJson lib) · xs)] v) j xs

/-! ## Requests -/

/-- Two hex digits for each byte of a root. -/
def hexText (root : Id) : List Char :=
  '0' :: 'x' :: root.bytes.flatMap fun b => [Nat.digitChar (b.toNat / 16), Nat.digitChar (b.toNat % 16)]

def bootstrapAt (rpc : List Char) (root : Id) : List Char := rpc ++ "/eth/v1/beacon/light_client/bootstrap/".toList ++ hexText root
def updatesAt (rpc : List Char) (period count : Nat) : List Char :=
  rpc ++ "/eth/v1/beacon/light_client/updates?start_period=".toList ++ Nat.toDigits 10 period ++ "&count=".toList ++ Nat.toDigits 10 count
def finalityAt (rpc : List Char) : List Char := rpc ++ "/eth/v1/beacon/light_client/finality_update".toList
def optimisticAt (rpc : List Char) : List Char := rpc ++ "/eth/v1/beacon/light_client/optimistic_update".toList
def chainAt (rpc : List Char) : List Char := rpc ++ "/eth/v1/config/spec".toList

/-- The server and the trusted root of the program. -/
def server : List Char := "http://testing.mainnet.beacon-api.nimbus.team".toList
def trusted : Id := 0x9c30624f15e4df4e8f819f89db8b930f36b561b7f70905688ea208d22fb0b822

/-- What a start asks for, when the bootstrap is of this period. -/
def startPlan (first : Nat) : List (List Char) :=
  [chainAt server, bootstrapAt server trusted, updatesAt server first 128, finalityAt server, optimisticAt server]

end Verif.Props.NimbusSpec
