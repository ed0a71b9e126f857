import Verif.Props.FullNode
import Verif.Props.EthCall

/-! # C99: `eth_call` on a node with all networks

`C100` says that a call runs on the state of the header that the history network gives; here that header is on the chain. -/

namespace Verif.Props
open Verif.FullNode Verif.Props.FullNodes
open Verif.EthRpc (BlockId)
open Verif.EthCall (Ran RunsUnder IsWorld Collision replay_true)
open Verif.Evm (Active)

variable {Hd Tx Rc Wd : Type} {n : Node Hd Tx Rc Wd} {given : Option Id} {tie : Nat} {es : List Ev}
  {L : Ledger Hd} {truth : List BeaconValue.Summary} (api : EthRpc.Api Hd Tx Rc Wd)

/-- Part of: if a call runs to its end, its result is that of the EVM with the rules that are in force at the block, the
environment of the block and the transaction asked for, on the true state of the block of the chain that has the hash or the
number asked for; at each question the state network may answer with anything that it found before then. Missing: blocks of
Prague and later (`C100_prague_violated`). -/
theorem C99_call_partial (lib : EthCall.Lib Hd) (nets : Nat → EvmState.Network) (hf : n.history.lib.Faithful)
    (hq : Store.Sql n.state.db) (hd : Describes L n.history truth) (ht : Trust n given tie es truth) (hc : Clean n es)
    (he : Endpoints n given tie es api) (hn : ∀ i, Answered n given tie es (nets i))
    (hempty : api.evm.trie.K [] = api.evm.keccakEmpty) (rounds : Nat) (t : EthCall.Request) (block : BlockId)
    (hr : Ran (EthCall.call api lib nets rounds t block)) :
    ∃ h, Asked L n.history api block h ∧ ∀ f, Active (lib.view h).number f → (lib.view h).number < 22431084 →
      ∃ p, RunsUnder lib f t (lib.view h) p ∧ ∀ db state w, IsWorld api.evm db (api.stateRoot h) state w →
        EthCall.call api lib nets rounds t block = (p.play w).report ∨ Collision api.evm nets db state w := by
  obtain ⟨h, o, hh, ho, hr⟩ := call_ran hr
  have hs : ∀ i, EvmState.Validated api.evm (nets i) := by
    intro i
    refine C94_reader n.state hq _ he.trie (stateEvents es) (nets i) ?_ fun key bs h => (hn i key bs h).1
    intro key bs h
    obtain ⟨_, pre, post, s, rfl, hl, hs⟩ := hn i key bs h
    exact ⟨stateEvents pre, stateEvents post, s.state, stateEvents_append .., hl.parts.2.2, hs⟩
  refine ⟨h, asked_of hf hd ht hc he hh, fun f hfork hb => ⟨_, (runs_under hb f hfork).mpr rfl, ?_⟩⟩
  intro db state w hw
  rcases replay_true hs hempty hw _ 0 [] (by intro e he; cases he) o ho with ⟨h1, _⟩ | h1
  · left; rw [hr, h1]
  · exact .inr h1

end Verif.Props

namespace Verif.FullNodeExample
open Verif.Props.FullNodes
open Verif Verif.Props
open Verif.HistoryExample (lib_faithful)
open Verif.EthCall (Program Info)

/-- An EVM that gives the balance of an account. -/
def balanceOf : EthCall.Lib UInt8 :=
  ⟨fun _ _ _ => .ask (.account EvmStateExample.address) fun x => match (x : Option Info) with
    | none => .done .revert
    | some x => .done (.success [UInt8.ofNat x.balance.toNat]),
    EthCallExample.defaultTx, EthCallExample.lib.view⟩

def moment (_ : Nat) : EvmState.Network := fun key =>
  if key = StateNodeExample.rootKey then some (StateContent.Value.trieNode [1]).encode
  else if key = StateNodeExample.leafKey then some (StateContent.Value.trieNode [2]).encode else none

theorem called : EthCall.call api balanceOf moment 65 (EthCallExample.request 1) (.number 5) = .ok [2] := by decide +kernel

example := C99_call_partial api balanceOf moment lib_faithful StoreExample.sql describes trust clean endpoints
  (fun _ => endpoints.state _ rfl) (by decide +kernel) 65 (EthCallExample.request 1) (.number 5) ⟨.success [2], called⟩

end Verif.FullNodeExample
