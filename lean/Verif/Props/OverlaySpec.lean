import Verif.Model.Overlay
import Verif.Props.OfferSpec

/-! # Specification of the calls on an overlay network -/

namespace Verif.OverlaySpec
open Verif.Wire Verif.Overlay

variable {E K : Type}

/-- What arrives at the peer for a request: the request, but of an offer only the keys. -/
def arriving : Request → Request
  | .populatedOffer items => .offer (items.map (·.1))
  | .populatedOfferWithResult items => .offer (items.map (·.1))
  | r => r

/-- The caller asks the node `s` over the network and waits for the answer; `caller` is its node id. -/
def askNode [DecidableEq K] [DecidableEq E] (c : EnrCodec E) (s : Server E K) (caller : Id) (r : Request) :
    Except ReqErr (Response E) :=
  sendTalk c (fun body => .ok (serve c (reply c s caller) body)) r

/-- What the node `s` does over uTP after it was sent the request. -/
def uTpWork [DecidableEq K] [DecidableEq E] (c : EnrCodec E) (s : Server E K) (caller : Id) (r : Request) :
    Option (Job K) :=
  work c s caller (encode c r.toMessage)

/-- The distances that may be asked for. -/
def Askable (ds : List UInt16) : Prop :=
  1 ≤ ds.length ∧ ds.length ≤ 256 ∧ (∀ d ∈ ds, d.toNat ≤ 256) ∧ ds.Nodup

/-- The node and its caller are of the same version of the protocol, as far as framing is concerned: the caller
computed `v` from the record it has of the node, the node knows a record of the caller and gets the same. -/
def SameFraming (s : Server E K) (v : Versions.Version) : Prop :=
  ∃ e v', s.asker = some e ∧ s.version e = .ok v' ∧ v'.isV1Enabled = v.isV1Enabled

/-- A record with the greatest sequence number of a list. -/
def Newest (seq : E → Nat) (es : List E) (e : E) : Prop := e ∈ es ∧ ∀ x ∈ es, seq x ≤ seq e

/-- The ids under which requests were handed to the service. -/
def submitted : List (MgrEvent E) → List Nat
  | [] => []
  | .submit id _ :: evs => id :: submitted evs
  | .answer _ _ :: evs => submitted evs

/-- The ids of the answers that came in. -/
def answered : List (MgrEvent E) → List Nat
  | [] => []
  | .submit _ _ :: evs => answered evs
  | .answer id _ :: evs => id :: answered evs

/-- The callers that wait for an answer. -/
def callers : List (MgrEvent E) → List Nat
  | [] => []
  | .submit _ a :: evs => a.caller.toList ++ callers evs
  | .answer _ _ :: evs => callers evs

/-- The request was handed over under this id and no answer has come in yet. -/
def Waiting (events : List (MgrEvent E)) (id : Nat) (a : Active E) : Prop :=
  ∃ before after, events = before ++ .submit id a :: after ∧ id ∉ answered after

/-- `result` is the first answer that came in for a request after it was handed over. -/
def FirstAnswer (events : List (MgrEvent E)) (a : Active E) (result : Except ReqErr (Response E)) : Prop :=
  ∃ before between after id, events = before ++ .submit id a :: between ++ .answer id result :: after ∧
    id ∉ answered between

end Verif.OverlaySpec
