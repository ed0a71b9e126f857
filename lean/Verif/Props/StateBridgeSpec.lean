import Verif.Model.StateBridge
import Verif.Props.E2ssSpec
import Verif.Props.ExecutionSpec

/-! # Specification of the state bridge as a process -/

namespace Verif.Props.StateBridges
open Verif.StateBridge
open Verif.TrieWalker (Item)
open Verif.Census (OfferTrace)

variable {P : Type}

/-- The peers that were selected for a content (none when the census failed). -/
def selected (c : Content P) : List P := c.peers.getD []

/-- The peers that were sent an offer, in order. -/
def sentTo (c : Content P) : List P := c.offers.map (·.peer)

/-- All offers. -/
def offers (s : State P) : List (Offer P) := s.contents.flatMap (·.offers)

/-- The offers that were sent and have not ended. -/
def inFlight (s : State P) : List (Offer P) := (offers s).filter fun o => o.result.isNone

/-- What the census has to be told about the offers of a content that have ended: the peer, the number of bytes of the content,
how long it took and the result. -/
def toldOf (c : Content P) : List (Recorded P) :=
  c.offers.filterMap fun o => o.result.map fun r => ⟨o.peer, c.item.2.encode.length, r.2 - o.sent, r.1⟩

/-- The results of the offers of a content that have ended. -/
def resultsOf (c : Content P) : List (P × OfferTrace) :=
  c.offers.filterMap fun o => o.result.map fun r => (o.peer, r.1)

def isAccepted : OfferTrace → Bool
  | .success .accepted => true
  | _ => false

def isFailed : OfferTrace → Bool
  | .failed => true
  | _ => false

/-- How often each occurs in a list of results: accepted, declined, failed. -/
def count (l : List OfferTrace) : Totals :=
  ⟨l.countP isAccepted, l.countP fun t => !isAccepted t && !isFailed t, l.countP isFailed⟩

/-- Every selected peer was sent an offer, and every offer has ended. -/
def Complete (c : Content P) : Prop := sentTo c = selected c ∧ ∀ o ∈ c.offers, o.result.isSome

/-- The state after some events from the start. -/
def Reachable (limit : Nat) (items : List Item) (ok : Bool) (s : State P) : Prop :=
  ∃ es, s = run ok (init limit items) es

/-- What the answer to an offer means: an error and no answer in time are failures. -/
def told : Reply → OfferTrace
  | .trace t => t
  | .error | .timeout => .failed

/-- The process has ended. -/
def Ended (s : State P) : Prop := ∀ todo, s.main ≠ .running todo

/-- Nobody answers: events in which no offer ends before its time, there is no signal, and the census always says the same. -/
def Silent (census : Option (List P)) : Event P → Prop
  | .main x => x = census
  | .reply _ _ r => r = .timeout
  | .tick _ => True
  | .signal => False

section Snapshot
open Verif.E2ss Verif.EvmDb Verif.Props.Snapshot

/-- The files on the server are what they are listed as: the file for a block has the header of a block of this number. -/
def HonestFiles (c : Codecs) (web : Web) : Prop :=
  ∀ n file h gs, web.download n = some file → Says c file h gs → h.number = n

/-- The database is that of a file that was downloaded for this block: the file is complete and consistent, and its accounts are
those of the trie. -/
def FromFile (c : Codecs) (lib : Lib) (webs : List Web) (snapshot : UInt64) (d : Disk) : Prop :=
  ∃ web ∈ webs, ∃ file h gs, web.download snapshot = some file ∧ Says c file h gs ∧ Consistent lib h gs ∧
    d.trie = accountContent lib gs ∧ d.root = h.stateRoot ∧ d.next = h.number + 1

end Snapshot

section Range
open Verif.Execution
variable {Key Val : Type}

/-- What is gossiped after a block: its number, the state after it, and its state root. -/
def gossiped (l : List (Node Key Val)) : List (Nat × World Key Val × Nat) :=
  l.map fun n => (n.disk.next - 1, n.disk.world, n.disk.root)

/-- What is to be gossiped for `len` blocks from `start`. -/
def expected (chain : Nat → Block) (world : Nat → World Key Val) (start len : Nat) : List (Nat × World Key Val × Nat) :=
  (List.range len).map fun i => (start + i, world (start + i + 1), (chain (start + i)).stateRoot)

end Range

end Verif.Props.StateBridges
