import Verif.Model.Reports

/-! # C114: what the numbers that a node reports should say

Messages are those of the wire protocol (`Wire.Message`), slots are natural numbers. -/

namespace Verif.Props.ReportsSpec
open Verif.Reports
open Verif.Wire (Request Response Message)
open Verif.Capacity (Subnetwork)

/-! ## Messages -/

/-- The kind of a message. -/
def kindOf {E} : Message E → Label
  | .ping _ => .ping
  | .pong _ => .pong
  | .findNodes _ => .findNodes
  | .nodes _ _ => .nodes
  | .findContent _ => .findContent
  | .content _ => .content
  | .offer _ => .offer
  | .accept _ _ => .accept

/-- The event is about the request that `net` sent under number `id`. -/
def concerns {E} (net : Subnetwork) (id : Nat) : Event E → Bool
  | .send n i _ => n = net ∧ i = id
  | .answer n i _ => n = net ∧ i = id
  | _ => false

/-- The request sent last under this number, if it has not come back since. -/
def awaited {E} (past : List (Event E)) (net : Subnetwork) (id : Nat) : Option Request :=
  match (past.filter (concerns net id)).getLast? with
  | some (.send _ _ r) => some r
  | _ => none

/-- What the handlers say to a request of a peer. -/
def replyTo {E} (h : Handlers E) : Request → Option (Message E)
  | .ping _ => some (.pong h.pong)
  | .findNodes _ => some (.nodes h.nodes.1 h.nodes.2)
  | .findContent _ => h.content.map .content
  | .offer _ => h.accept.map fun a => .accept a.1 a.2
  | _ => none

/-- The messages that pass in an event: in which network, which way, what. -/
def onTheWire {E} (past : List (Event E)) : Event E → List (Subnetwork × Direction × Message E)
  | .send net _ r => [(net, .sent, r.toMessage)]
  | .answer net id (some a) => if (awaited past net id).isSome then [(net, .received, a.toMessage)] else []
  | .answer _ _ none => []
  | .receive net r responder h =>
    (net, .received, r.toMessage) ::
      (if responder then ((replyTo h r).map fun m => (net, Direction.sent, m)).toList else [])
  | .validate _ _ _ => []

/-- The messages of a history, `past` being what came before it. -/
def traffic {E} (past : List (Event E)) : List (Event E) → List (Subnetwork × Direction × Message E)
  | [] => []
  | e :: es => onTheWire past e ++ traffic (past ++ [e]) es

/-- A message of this kind that passes this way in this network. -/
def isKind {E} (net : Subnetwork) (d : Direction) (l : Label) (t : Subnetwork × Direction × Message E) : Bool :=
  t.1 = net ∧ t.2.1 = d ∧ kindOf t.2.2 = l

/-- How many messages of a kind passed. -/
def seen {E} (es : List (Event E)) (net : Subnetwork) (d : Direction) (l : Label) : Nat :=
  ((traffic [] es).filter (isKind net d l)).length

/-- The requests that were sent. -/
def asked {E} (es : List (Event E)) (net : Subnetwork) : Nat :=
  seen es net .sent .ping + seen es net .sent .findNodes + seen es net .sent .findContent + seen es net .sent .offer

/-- The responses that were received. -/
def answered {E} (es : List (Event E)) (net : Subnetwork) : Nat :=
  seen es net .received .pong + seen es net .received .nodes + seen es net .received .content +
    seen es net .received .accept

/-- Content is fine where it was received: to be kept it must be canonical, to be returned it must fit its key. -/
def fine : Site → Verdict → Prop
  | .accepted, v => v = .canonicallyValid
  | _, v => v ≠ .invalid

instance (s : Site) (v : Verdict) : Decidable (fine s v) := by
  cases s <;> simp only [fine] <;> infer_instance

/-- The event is a validation in this network. -/
def isValidation {E} (net : Subnetwork) : Event E → Bool
  | .validate n _ _ => n = net
  | _ => false

/-- It is one with a good end. -/
def isGood {E} (net : Subnetwork) : Event E → Bool
  | .validate n s v => n = net ∧ fine s v
  | _ => false

/-- No peer sends an ACCEPT for something else than an OFFER. -/
def AcceptsFit {E} (es : List (Event E)) : Prop :=
  ∀ past rest net id c k r, es = past ++ .answer net id (some (.accept c k)) :: rest →
    awaited past net id = some r → kindOf (r.toMessage (E := E)) = .offer

/-! ## The head of the chain -/

/-- What one of the two heads sees: a slot begins, or a header of a slot is learnt. -/
inductive Ev where
  | tick (current : Nat)
  | learn (slot : Nat)
deriving DecidableEq, Repr

def optimisticView {σ} : HeadOp σ → List Ev
  | .tick c => [.tick c]
  | .op (.update a _) => [.learn a.slot]
  | .op (.optimisticUpdate a) => [.learn a.slot]
  | .op (.finalityUpdate a _) => [.learn a.slot]
  | .op (.summaries _) => []

def finalizedView {σ} : HeadOp σ → List Ev
  | .tick c => [.tick c]
  | .op (.update _ f) => [.learn f.slot]
  | .op (.optimisticUpdate _) => []
  | .op (.finalityUpdate _ f) => [.learn f.slot]
  | .op (.summaries _) => []

def learnt : List Ev → List Nat
  | [] => []
  | .learn s :: es => s :: learnt es
  | .tick _ :: es => learnt es

/-- The highest slot known. -/
def newest (start : Nat) (es : List Ev) : Nat := (learnt es).foldl max start

def IsTick : Ev → Prop
  | .tick _ => True
  | .learn _ => False

/-- The numbers fit 63 bits. -/
def Small : Ev → Prop
  | .tick c => c < 2 ^ 63
  | .learn s => s < 2 ^ 63

/-- The slots that were higher than all before. -/
def records (m : Nat) : List Nat → List Nat
  | [] => []
  | x :: xs => if m < x then x :: records x xs else records m xs

def differences : List Nat → List Int
  | a :: b :: r => ((b : Int) - a) :: differences (b :: r)
  | _ => []

/-- What is shown after the events `es` by a node that begins with a header of slot `start`. -/
structure Shows (start : Nat) (es : List Ev) (g : Gauge) : Prop where
  /-- the highest slot, once it is higher than that of the start -/
  slot : g.slot = if newest start es = start then 0 else (newest start es : Int)
  /-- how far that was behind when the last slot began -/
  lag : ∀ (pre : List Ev) (c : Nat) (post : List Ev), es = pre ++ .tick c :: post → (∀ e ∈ post, ¬ IsTick e) →
    g.lag = if newest start pre = start then 0 else (c : Int) - newest start pre
  noLag : (∀ e ∈ es, ¬ IsTick e) → g.lag = 0
  /-- by how much each new slot was higher than the one before -/
  delays : g.delays = differences (records start (learnt es))

end Verif.Props.ReportsSpec
