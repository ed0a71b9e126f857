import Verif.Model.JsonRpc

/-! # Specification: what the JSON-RPC methods answer, and what they do

Without JSON: a method performs one call of the overlay network, of the store or of the light client, with its own
parameters, and answers with the result of that call. -/

namespace Verif.Props.Rpc
open Verif.JsonRpc
open Verif.Wire (ExtType)

variable {E K V U σ α β ε : Type}

/-- Text and JSON of other crates can be read back. -/
structure Readable (l : Lib E U) : Prop where
  enr : ∀ e, l.enrOf (l.enrStr e) = some e
  id : ∀ i, l.idOf (l.idStr i) = some i
  hash : ∀ i, l.hashOf (l.hashStr i) = some i
  u256 : ∀ r, r < 2 ^ 256 → l.u256Of (l.u256Str r) = some r
  update : ∀ u, l.updateOf (l.update u) = some u

/-- The numbers of a trace are 64-bit numbers. -/
def TraceFits (t : QueryTrace E) : Prop :=
  t.startedAtMs < 2 ^ 64 ∧ (∀ r ∈ t.responses, r.2.1 < 2 ^ 64) ∧ ∀ r ∈ t.failures, r.2.1 < 2 ^ 64

def HeaderFits (h : Header) : Prop := h.slot < 2 ^ 64 ∧ h.proposerIndex < 2 ^ 64

/-- The results have the sizes of their types: `u32`, `u64`, `U256`, at most 64 codes; the keys in the store are keys (C06). -/
structure Fits (n : Net K V) (w : World σ E K U) : Prop where
  radius : ∀ s, w.radius s < 2 ^ 256
  peers : ∀ k v s, (w.putContent k v s).1.peerCount < 2 ^ 32
  page : ∀ o m s ks total, (w.paginate o m s).1 = some (ks, total) →
    total < 2 ^ 64 ∧ ∀ k ∈ ks, n.keyOf (n.keyBytes k) = some k
  codes : ∀ e items s codes, (w.sendOffer e items s).1 = .ok codes → codes.length ≤ 64
  found : ∀ k b s c u t, (w.lookupContent k b s).1 = .found c u (some t) → TraceFits t
  lost : ∀ k b s m u t, (w.lookupContent k b s).1 = .notFound m u (some t) → TraceFits t
  header : ∀ s c h, w.client s = some c → c.header = some h → HeaderFits h
  final : ∀ s c h, w.client s = some c → c.finalizedHeader = some h → HeaderFits h

/-- The error of everything that has no code of its own. -/
def failed : Answer α := .err ⟨-32099, none⟩

/-- The result of a call, or the error. -/
def told (f : α → β) : Except ε α → Answer β
  | .ok x => .ok (f x)
  | .error _ => failed

def toldOpt (f : α → β) : Option α → Answer β
  | some x => .ok (f x)
  | none => failed

/-- This text occurs in that one. -/
def Occurs (t s : List Char) : Prop := ∃ before after, s = before ++ t ++ after

/-- The text of a lookup that found nothing. -/
def notLocated : List Char := "Unable to locate content on the network".toList

/-- The answer to a lookup; `f` selects what is answered. A lookup that found nothing is error -39001 with the trace. -/
noncomputable def lookedUp (l : Lib E U) (f : Bytes → Bool → Option (QueryTrace E) → Option β) : Looked E → Answer β
  | .found c u t => toldOpt id (f c u t)
  | .notFound message utp t =>
    open Classical in
    if Occurs notLocated (message ++ ": utp: ".toList ++ (if utp then "true".toList else "false".toList)) then
      .err ⟨-39001, some (match t with | some t => traceJson l t | none => .null)⟩
    else failed
  | .failed => failed

/-- The call is made with the bytes that the decoded value is encoded to; a value that is not of
this key is refused, and nothing happens. -/
def withValue (n : Net K V) (k : K) (value : Bytes) (s : σ) (f : Bytes → Answer β × σ) : Answer β × σ :=
  match n.decode k value with
  | .value v => f (n.encode v)
  | .malformed => (failed, s)
  | .abort => (.abort, s)

/-- The same for the items of an offer: the first one that is not a value of its key decides. -/
def withItems (n : Net K V) (s : σ) : List (K × Bytes) → (List (Bytes × Bytes) → Answer β × σ) → Answer β × σ
  | [], f => f []
  | (k, value) :: items, f => withValue n k value s fun v => withItems n s items fun rest => f ((n.keyBytes k, v) :: rest)

/-- Only pings of a type the network knows are sent, with a payload of that type. -/
def withPing (l : Lib E U) (n : Net K V) (t : Option ExtType) (payload : Option Json) (s : σ)
    (f : Option PingExt.Ext → Answer β × σ) : Answer β × σ :=
  match t with
  | none => if payload.isSome then (.err ⟨-39006, none⟩, s) else f none
  | some (.nonSupported _) => (.err ⟨-39004, some (.str "client".toList)⟩, s)
  | some t =>
    if t ∉ n.supported then (.err ⟨-39004, some (.str "subnetwork".toList)⟩, s)
    else
      match payload with
      | none => f none
      | some p =>
        match l.payload t p with
        | none => (.err ⟨-39005, none⟩, s)
        | some x => f (some x)

/-- The answer to a ping: sequence number, type and decoded payload of the pong. -/
def pong (l : Lib E U) : Except Overlay.ReqErr Wire.PingBody → Answer PongInfo
  | .ok p =>
    match PingExt.decodeExt l.utf8 p.payloadType p.payload with
    | some x => .ok ⟨p.enrSeq.toNat, p.payloadType, extJson l x⟩
    | none => failed
  | .error _ => failed

/-- What a peer has for a key. -/
def contentOf : Except Overlay.ReqErr (Wire.Content E × Bool) → Answer (FindContentInfo E)
  | .ok (.content c, utp) => .ok (.content c utp)
  | .ok (.enrs es, _) => .ok (.enrs es)
  | .ok (.connectionId _, _) => failed
  | .error _ => failed

/-- What the store has for a key. -/
def storedFor : Except Unit (Option Bytes) → Answer Bytes
  | .ok (some b) => .ok b
  | .ok none => failed
  | .error _ => failed

/-- What the light client says, if there is one. -/
def client (w : World σ E K U) (s : σ) (f : Client U → Option β) : Answer β × σ := (toldOpt id ((w.client s).bind f), s)

/-- The answer of each method and the state after it. -/
noncomputable def expected (l : Lib E U) (n : Net K V) (w : World σ E K U) : {α : Type} → Method E K U α → σ → Answer α × σ
  | _, .routingTableInfo, s => (.ok (w.routingTable s), s)
  | _, .addEnr e, s => (told (fun _ => true) (w.addEnr e s).1, (w.addEnr e s).2)
  | _, .getEnr i, s => (told id (w.getEnr i s).1, (w.getEnr i s).2)
  | _, .deleteEnr i, s => (.ok (w.deleteEnr i s).1, (w.deleteEnr i s).2)
  | _, .lookupEnr i, s => (told id (w.lookupEnr i s).1, (w.lookupEnr i s).2)
  | _, .ping e t p, s => withPing l n t p s fun x => (pong l (w.sendPing e t x s).1, (w.sendPing e t x s).2)
  | _, .findNodes e ds, s => (told id (w.findNodes e ds s).1, (w.findNodes e ds s).2)
  | _, .recursiveFindNodes i, s => (.ok (w.lookupNode i s).1, (w.lookupNode i s).2)
  | _, .radius, s => (.ok (w.radius s), s)
  | _, .findContent e k, s =>
    (contentOf (w.findContent e (n.keyBytes k) s).1, (w.findContent e (n.keyBytes k) s).2)
  | _, .getContent k, s =>
    (lookedUp l (fun c u _ => some (c, u)) (w.lookupContent k false s).1, (w.lookupContent k false s).2)
  | _, .traceGetContent k, s =>
    (lookedUp l (fun c u t => t.map fun t => (c, u, t)) (w.lookupContent k true s).1, (w.lookupContent k true s).2)
  | _, .paginate o m, s => (toldOpt id (w.paginate o m s).1, (w.paginate o m s).2)
  | _, .putContent k v, s => withValue n k v s fun b => (.ok (w.putContent k b s).1, (w.putContent k b s).2)
  | _, .offer e items, s =>
    if items.length = 0 ∨ 64 < items.length then (failed, s)
    else withItems n s items fun bs => (told id (w.sendOffer e bs s).1, (w.sendOffer e bs s).2)
  | _, .traceOffer e k v, s => withValue n k v s fun b =>
    (told id (w.sendOfferTrace e (n.keyBytes k) b s).1, (w.sendOfferTrace e (n.keyBytes k) b s).2)
  | _, .store k v, s => withValue n k v s fun b => (toldOpt (fun _ => true) (w.put k b s).1, (w.put k b s).2)
  | _, .localContent k, s => (storedFor (w.get k s).1, (w.get k s).2)
  | _, .optimisticStateRoot, s => client w s fun c => c.header.map Header.stateRoot
  | _, .finalizedStateRoot, s => client w s fun c => c.finalizedHeader.map Header.stateRoot
  | _, .finalizedHeader, s => client w s Client.finalizedHeader
  | _, .optimisticUpdate, s => client w s Client.optimisticUpdate
  | _, .finalityUpdate, s => client w s Client.finalityUpdate
  | _, .lightClientStore, s => client w s Client.store

/-- The values that a method takes from its caller to store, offer or gossip. -/
def values : Method E K U α → List (K × Bytes)
  | .putContent k v => [(k, v)]
  | .offer _ items => items
  | .traceOffer _ k v => [(k, v)]
  | .store k v => [(k, v)]
  | _ => []

/-- Values have one encoding only. -/
def Exact (n : Net K V) : Prop := ∀ k b v, n.decode k b = .value v → n.encode v = b

/-- This peer, asked for nodes at these distances, tells only of nodes at one of these distances from itself. -/
def Honest (nodeId : E → Id) (ask : E → List Nat → Option (List E)) : Prop :=
  ∀ p ds found x, ask p ds = some found → x ∈ found →
    ∃ d ∈ ds, distLog2 (xorDistance (nodeId p) (nodeId x)) = some d

end Verif.Props.Rpc
