import Verif.Model.LightNode
import Verif.Model.LcJson

/-! # The stand-alone light client and its answers over HTTP

`crates/light-client/src/main.rs`, `crates/light-client/src/consensus/rpc/nimbus_rpc.rs` and the JSON of checkpoint services
(`crates/light-client/src/config/checkpoints.rs`). What is outside (the servers, the clock, the ports of the machine) has a state
`σ`. A request has an answer with a JSON document, or not (`none`: no connection, no answer, an answer that is no JSON); the status
of an answer is not looked at by the code. The list of the checkpoint services is YAML; it is taken as parsed. -/

namespace Verif.Nimbus
open Verif.E2store (Res)
open Verif.JsonRpc (Json)
open Verif.LcJson (Lib JTy Members struct readAll ofOption)
open Verif.LightNode (Rpc Web Fail Slot Service Node Builder Settings)
open Verif.LightClient (Env)
open scoped Verif.Provider

/-- What the program reaches. -/
structure Http (σ : Type) where
  get : List Char → σ → Option Json × σ
  /-- the list of checkpoint services, at its URL -/
  list : σ → Option (List Service) × σ
  clock : σ → Nat × σ
  /-- binding the port of the JSON-RPC server -/
  serve : σ → Bool × σ
  /-- the iteration order of a hash map -/
  order : List (Id × Nat) → List (Id × Nat)
  sleep : Nat → σ → σ

/-- The state with the URLs that were asked. -/
structure Talk (σ : Type) where
  world : σ
  urls : List (List Char)

variable {σ : Type}

/-- A request (nimbus_rpc.rs:39-47, checkpoints.rs:290-297). -/
def Http.ask (w : Http σ) (url : List Char) (s : Talk σ) : Option Json × Talk σ :=
  ((w.get url s.world).1, ⟨(w.get url s.world).2, s.urls ++ [url]⟩)

/-! ## Answers -/

/-- `BootstrapResponse`, `UpdateData`, `FinalityUpdateResponse`, `OptimisticUpdateResponse`, `SpecResponse`
(nimbus_rpc.rs:114-142), `RawSlotResponse` (checkpoints.rs:16-19). -/
def inData {α} (t : JTy α) : JTy α := struct false (.cons (chars% "data") t .nil) (·.1) (·, ())

/-- `UpdateResponse` (nimbus_rpc.rs:112-117). -/
def allData {α} (t : JTy α) : Json → Res (List α)
  | .arr js => readAll (inData t) js
  | _ => .err

/-- `u64_deserialize` (crates/light-client/src/consensus/types.rs:72-81). -/
def numeral : JTy UInt64 where
  ser n := .str (HeadGen.decimal n.toNat)
  de j := match j with
    | .str s => (ofOption (HeadGen.parseU64 s)).map UInt64.ofNat
    | _ => .err

/-- `Spec` (nimbus_rpc.rs:144-148). -/
def spec : JTy UInt64 := struct false (.cons (chars% "DEPOSIT_NETWORK_ID") numeral .nil) (·.1) (·, ())

/-- The value of an answer. -/
def outcome {α} (read : Json → Res α) : Option Json → Except Fail α
  | none => .error .other
  | some j =>
    match read j with
    | .ok x => .ok x
    | .err => .error .other
    | .panic => .error .abort

/-- nimbus_rpc.rs:33-36. -/
def bootstrapUrl (rpc : List Char) (root : Id) : List Char :=
  rpc ++ (chars% "/eth/v1/beacon/light_client/bootstrap/") ++ Hex.hexEncode root.bytes

/-- nimbus_rpc.rs:53-57; `MAX_REQUEST_LIGHT_CLIENT_UPDATES` is 128. -/
def updatesUrl (rpc : List Char) (period count : UInt64) : List Char :=
  rpc ++ (chars% "/eth/v1/beacon/light_client/updates?start_period=") ++ HeadGen.decimal period.toNat ++ (chars% "&count=") ++
    HeadGen.decimal (min count.toNat 128)

/-- nimbus_rpc.rs:73. -/
def finalityUrl (rpc : List Char) : List Char := rpc ++ (chars% "/eth/v1/beacon/light_client/finality_update")

/-- nimbus_rpc.rs:85. -/
def optimisticUrl (rpc : List Char) : List Char := rpc ++ (chars% "/eth/v1/beacon/light_client/optimistic_update")

/-- nimbus_rpc.rs:97. -/
def specUrl (rpc : List Char) : List Char := rpc ++ (chars% "/eth/v1/config/spec")

/-- `NimbusRpc` (nimbus_rpc.rs:24-110). -/
def nimbusRpc (lib : Lib) (w : Http σ) (rpc : List Char) : Rpc (Talk σ) where
  portal := false
  chainId s :=
    let a := w.ask (specUrl rpc) s
    match outcome (inData spec).de a.1 with
    | .ok n => (some n.toNat, a.2)
    | .error _ => (none, a.2)
  bootstrap root s :=
    let a := w.ask (bootstrapUrl rpc root) s
    ((outcome (inData (LcJson.bootstrap lib .electra)).de a.1).map LightNode.bootstrapOf, a.2)
  updates period count s :=
    let a := w.ask (updatesUrl rpc period count) s
    ((outcome (allData (LcJson.update lib .electra)) a.1).map (List.map LightNode.updateOf), a.2)
  finality s :=
    let a := w.ask (finalityUrl rpc) s
    ((outcome (inData (LcJson.finality lib .electra)).de a.1).map LightNode.finalityOf, a.2)
  optimistic s :=
    let a := w.ask (optimisticUrl rpc) s
    ((outcome (inData (LcJson.optimistic lib .electra)).de a.1).map LightNode.optimisticOf, a.2)
  clock s := ((w.clock s.world).1, ⟨(w.clock s.world).2, s.urls⟩)

/-! ## Checkpoint services -/

def text : JTy (List Char) where
  ser := .str
  de j := ofOption j.asStr

/-- `Slot` and `StartEndTime` (checkpoints.rs:26-43), all fields. -/
def slotMembers (lib : Lib) : Members (UInt64 × Option Id × Option Id × UInt64 × (List Char × List Char × Unit) × Unit) :=
  .cons (chars% "slot") (LcJson.u64 lib) <| .opt (chars% "block_root") (LcJson.word lib) <|
    .opt (chars% "state_root") (LcJson.word lib) <| .cons (chars% "epoch") (LcJson.u64 lib) <|
    .cons (chars% "time") (struct false (.cons (chars% "start_time") text <| .cons (chars% "end_time") text .nil) id id) .nil

/-- An array (`Vec`). -/
def array {α} (t : JTy α) : JTy (List α) where
  ser xs := .arr (xs.map t.ser)
  de j := match j with
    | .arr js => readAll t js
    | _ => .err

/-- `RawSlotResponse` and `RawSlotResponseData` (checkpoints.rs:16-24), as far as it is used. -/
def slots (lib : Lib) (j : Json) : Res (List Slot) :=
  ((inData (struct false (.cons (chars% "slots") (array (struct false (slotMembers lib) id id)) .nil) (·.1) (·, ()))).de j).map
    (List.map fun x => ⟨x.1.toNat, x.2.1, x.2.2.2.1.toNat⟩)

/-- `CHECKPOINT_SYNC_SERVICES_LIST` (checkpoints.rs:12). -/
def listUrl : List Char := chars%
  "https://raw.githubusercontent.com/ethpandaops/checkpoint-sync-health-checks/master/_data/endpoints.yaml"

/-- What the client reaches besides its RPC (checkpoints.rs:95-116, 130-135, 207-215, 290-297). -/
def webOf (lib : Lib) (w : Http σ) (rpc : List Char) : Web (Talk σ) where
  serve s := ((w.serve s.world).1, ⟨(w.serve s.world).2, s.urls⟩)
  slots url s :=
    let a := w.ask url s
    match outcome (slots lib) a.1 with
    | .ok l => (some l, a.2)
    | .error _ => (none, a.2)
  services s := ((w.list s.world).1, ⟨(w.list s.world).2, s.urls ++ [listUrl]⟩)
  order := w.order
  sleep n s := ⟨w.sleep n s.world, s.urls⟩
  renew := some (nimbusRpc lib w rpc)

/-! ## The program -/

/-- The settings of the program (main.rs:11-14, 21-43). -/
def builder : Builder where
  network := some .mainnet
  consensusRpc := some (chars% "http://testing.mainnet.beacon-api.nimbus.team")
  checkpoint := some 0x9c30624f15e4df4e8f819f89db8b930f36b561b7f70905688ea208d22fb0b822
  rpcPort := some 8544
  dataDir := some (chars% "/tmp/light-client")
  fallback := some (chars% "https://sync-mainnet.beaconcha.in")
  loadExternal := true

/-- A client made by a builder, and started, as by `main` (main.rs:45-50); `file` is what the data directory has. -/
def launch (env : Env) (lib : Lib) (w : Http σ) (b : Builder) (file : Option Bytes) (s : σ) :
    (Option Fail × Option (Node (Talk σ))) × Talk σ :=
  match b.build with
  | .error f => ((some f, none), ⟨s, []⟩)
  | .ok settings =>
    match LightNode.openDb settings file with
    | .error f => ((some f, none), ⟨s, []⟩)
    | .ok checkpoint =>
      let r := (LightNode.newNode settings (nimbusRpc lib w settings.consensusRpc) checkpoint).start env
        (webOf lib w settings.consensusRpc) ⟨s, []⟩
      ((r.1.1, some r.1.2), r.2)

/-- `main` up to the wait for a signal (main.rs:16-50): an error is unwrapped. -/
def main (env : Env) (lib : Lib) (w : Http σ) (file : Option Bytes) (s : σ) : (Option (Node (Talk σ))) × Talk σ :=
  let r := launch env lib w builder file s
  match r.1 with
  | (none, some n) => (some n, r.2)
  | _ => (none, r.2)

end Verif.Nimbus
