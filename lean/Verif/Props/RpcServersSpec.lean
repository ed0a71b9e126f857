import Verif.Model.RpcServers

/-! What the JSON-RPC servers should do, in terms of what was asked for. -/

namespace Verif.Props.RpcServersSpec
open Verif.NodeConfig (Str Addr Handlers Module methods)
open Verif.RpcServers

/-- A selection has this module. -/
def Selected : Selection → Module → Prop
  | .all, _ => True
  | .standard, m => m ≠ .state
  | .selection ms, m => m ∈ ms

/-- This module is asked for on a transport. -/
def Picks (sel : Option Selection) (m : Module) : Prop := ∃ s, sel = some s ∧ Selected s m

/-- This method belongs to a module that is asked for on a transport. -/
def Chosen (sel : Option Selection) (x : Str) : Prop := ∃ m, Picks sel m ∧ x ∈ methods m

/-- A module is named twice. -/
def Repeats (sel : Option Selection) : Prop := ∃ ms, sel = some (.selection ms) ∧ ¬ ms.Nodup

/-- What a module needs runs. -/
def Runs (h : Handlers) : Module → Prop
  | .discv5 | .web3 => True
  | .eth | .legacyHistory => h.legacyHistory = true
  | .beacon => h.beacon = true
  | .state => h.state = true

/-- HTTP and WebSocket are asked for at one address. -/
def Shared (c : Config) : Prop := c.http = true ∧ c.ws = true ∧ c.httpAddr = c.wsAddr

/-- The same modules are asked for over HTTP and WebSocket. -/
def SameModules (s : Selections) : Prop := ∀ m, Picks s.http m ↔ Picks s.ws m

/-- This method is answered. -/
def Answers (r : Option Running) (x : Str) : Prop := ∃ s, r = some s ∧ x ∈ s.names

/-- This method is answered over IPC. -/
def AnswersIpc (hd : Handle) (x : Str) : Prop := ∃ p names, hd.ipc = some (p, names) ∧ x ∈ names

/-- A list of origins is the wildcard, perhaps with white space around it. -/
def Wild (d : Str) : Prop := ∃ a b, d = a ++ '*' :: b ∧ (∀ c ∈ a, isWhite c = true) ∧ ∀ c ∈ b, isWhite c = true

/-- One of the entries of a list with commas. -/
def Entry (d e : Str) : Prop :=
  ',' ∉ e ∧ ∃ a b, d = a ++ e ++ b ∧ (a = [] ∨ a.getLast? = some ',') ∧ (b = [] ∨ b.head? = some ',')

/-- No control characters but the tabulator. -/
def Clean (e : Str) : Prop := ∀ c ∈ e, c = '\t' ∨ (32 ≤ c.toNat ∧ c.toNat ≠ 127)

/-- A list of origins can be used: it is the wildcard or a list of clean entries without the wildcard. -/
def GoodCors (o : Option Str) : Prop :=
  ∀ d, o = some d → Wild d ∨ ∀ e, Entry d e → e ≠ ['*'] ∧ Clean e

/-- An origin that a list lets in. -/
def LetsIn (o : Option Str) (origin : Str) : Prop := ∃ d, o = some d ∧ (Wild d ∨ Entry d origin)

/-- An origin that a server lets in. -/
def Allowed (r : Running) (origin : Str) : Prop := ∃ k, r.server.cors = some k ∧ k.allows origin = true

/-- Two lists of origins do not contradict each other, if both are there. -/
def SameCors (ws http : Option Str) : Prop :=
  ∀ a b, ws = some a → http = some b → trim a = trim b

/-- Something that was asked for cannot be served: a module is named twice, or what it needs does not run. -/
def Unservable (h : Handlers) (sel : Option Selection) : Prop := Repeats sel ∨ ∃ m, Picks sel m ∧ ¬ Runs h m

/-- Where the WebSocket server is to listen. -/
def wsAt (c : Config) : Addr := c.wsAddr.getD ⟨0, 8546⟩

/-- Where the HTTP server is to listen. -/
def httpAt (c : Config) : Addr := c.httpAddr.getD ⟨0, 8545⟩

/-- Where the IPC server is to listen. -/
def ipcAt (c : Config) : Str := c.ipcEndpoint.getD "/tmp/trin-jsonrpc.ipc".toList

/-- The operating system lets separate servers listen: first the one for WebSocket, then the one for HTTP. -/
def CanBind (bind : Bind) (c : Config) : Prop :=
  ∃ taken, (if c.ws = true then ∃ a, bind [] (wsAt c) = some a ∧ taken = [a] else taken = []) ∧
    (c.http = true → bind taken (httpAt c) ≠ none)

end Verif.Props.RpcServersSpec
