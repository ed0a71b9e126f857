import Verif.Model.AcceptQueue
import Verif.Model.AcceptCode
import Verif.Model.Payload
import Verif.Model.Versions

/-! # Offers: answering one, serving one, receiving the content
(crates/portalnet/src/overlay/service/offer.rs)

`K` are content keys of the subnetwork, `P` are ENRs. Logging, metrics and the textual reasons of
errors are left out. uTP itself is not modelled: a transfer is a byte string that arrives, or an
error. -/

namespace Verif.Offer
open Verif.AQ

/-- `ShouldWeStoreContent` (crates/storage/src/lib.rs:29-37). -/
inductive Decision where
  | store | notWithinRadius | alreadyStored
deriving DecidableEq, Repr

/-- `OverlayRequestError::AcceptError` at its five places (offer.rs:64-68, 72-76, 80-84, 112-116,
124-128). -/
inductive Err where
  | tooManyKeys
  | unknownPeer
  | noCommonVersion
  | badKey
  | storage
deriving DecidableEq, Repr

/-- Everything `handle_offer` asks of its surroundings while it answers one offer. `now i` and
`pick i` are the clock and the delay map's choice at the `i`-th key; `cid` is `cid.send` of the
connection id drawn by the uTP controller. -/
structure Host (K P : Type) where
  /-- `find_enr(source)` (offer.rs:72). -/
  enr : Option P
  /-- `latest_common_protocol_version` (offer.rs:78). -/
  version : P → Except Versions.Err Versions.Version
  /-- `get_inbound_semaphore()` returned a permit (offer.rs:97). -/
  slot : Bool
  /-- `TContentKey::try_from_bytes` (offer.rs:110). -/
  decodeKey : Bytes → Option K
  /-- `should_we_store` (offer.rs:120-128; the batch is the default `map … collect` of
  crates/storage/src/lib.rs:60-65, no store overrides it). `none` is a storage error. -/
  wants : K → Option Decision
  now : Nat → Nat
  pick : Nat → Nat
  cid : UInt16

/-- The `Accept` message (crates/ethportal-api/src/types/portal_wire.rs:506-511), the verdicts it
encodes, and the keys handed to the task that receives the content (`none`: no task is spawned and
the permit is dropped on return). -/
structure Answer (K : Type) where
  connectionId : UInt16
  contentKeys : Bytes
  codes : List AcceptCode
  task : Option (List K)
deriving DecidableEq, Repr

/-- `u16::to_be` and `u16::from_be` (offer.rs:259, 311) on a little-endian machine. -/
def swap16 (x : UInt16) : UInt16 := UInt16.ofNat (x.toNat % 256 * 256 + x.toNat / 256)

/-- `.map(f).collect::<Result<Vec<_>, _>>()` (offer.rs:107-111, storage lib.rs:64). -/
def collect {α β : Type} (f : α → Option β) : List α → Option (List β)
  | [] => some []
  | a :: as =>
    match f a with
    | none => none
    | some b =>
      match collect f as with
      | none => none
      | some bs => some (b :: bs)

variable {K P : Type} [DecidableEq K] [DecidableEq P]

/-- The loop over the keys (offer.rs:129-147): queue afterwards, one verdict per key, accepted keys in
order. `i` is the index of the first key. -/
def verdictLoop (h : Host K P) (enr : P) :
    Nat → List (Entry K P) → List (K × Decision) → List (Entry K P) × List AcceptCode × List K
  | _, q, [] => (q, [], [])
  | i, q, (k, d) :: rest =>
    match d with
    | .store =>
      let r := addKey q (h.now i) (h.pick i) k enr
      let out := verdictLoop h enr (i + 1) r.1 rest
      if r.2 then (out.1, .accepted :: out.2.1, k :: out.2.2)
      else (out.1, .inboundTransferInProgress :: out.2.1, out.2.2)
    | .notWithinRadius =>
      let out := verdictLoop h enr (i + 1) q rest
      (out.1, .notWithinRadius :: out.2.1, out.2.2)
    | .alreadyStored =>
      let out := verdictLoop h enr (i + 1) q rest
      (out.1, .alreadyStored :: out.2.1, out.2.2)

/-- `OverlayService::handle_offer` (offer.rs:51-262): the queue afterwards and the answer. -/
def handleOffer (h : Host K P) (q : List (Entry K P)) (keys : List Bytes) :
    List (Entry K P) × Except Err (Answer K) :=
  if maxAcceptCodes < keys.length then (q, .error .tooManyKeys)
  else
    match h.enr with
    | none => (q, .error .unknownPeer)
    | some enr =>
      match h.version enr with
      | .error _ => (q, .error .noCommonVersion)
      | .ok v =>
        if h.slot = false then
          let codes := keys.map (fun _ => AcceptCode.rateLimited)
          (q, .ok ⟨0, acceptEncode v.isV1Enabled codes, codes, none⟩)
        else
          match collect h.decodeKey keys with
          | none => (q, .error .badKey)
          | some ks =>
            match collect h.wants ks with
            | none => (q, .error .storage)
            | some ds =>
              let out := verdictLoop h enr 0 q (ks.zip ds)
              if allDeclined out.2.1 then
                (out.1, .ok ⟨0, acceptEncode v.isV1Enabled out.2.1, out.2.1, none⟩)
              else
                (out.1, .ok ⟨swap16 h.cid, acceptEncode v.isV1Enabled out.2.1, out.2.1,
                  some out.2.2⟩)

/-! ## The offering side -/

/-- The requests an `ACCEPT` can answer (offer.rs:274-283): an offer of keys held in the store, or one
that carries its content. -/
inductive Request where
  | offer (keys : List Bytes)
  | populated (items : List (Bytes × Bytes))
deriving DecidableEq, Repr

/-- What `process_accept` does: an error; nothing, as all keys were declined; no transmission after a
failure; or a uTP stream on `recv`, `send` with a payload. -/
inductive Sent where
  | error
  | declined (codes : List AcceptCode)
  | failed
  | transmit (recv send : UInt16) (payload : Bytes) (codes : List AcceptCode)
deriving DecidableEq, Repr

/-- Loop of `provide_requested_content` (offer.rs:644-662); `get` is the store, `none` an error,
`some none` a key that is not stored. -/
def provideLoop (get : K → Option (Option Bytes)) : List (AcceptCode × K) → Option (List Bytes)
  | [] => some []
  | (c, k) :: rest =>
    if c = .accepted then
      match get k with
      | none => none
      | some none => none
      | some (some v) =>
        match provideLoop get rest with
        | none => none
        | some vs => some (v :: vs)
    else provideLoop get rest

/-- The content to send (offer.rs:321-339, 629-664). -/
def contentItems (decodeKey : Bytes → Option K) (get : K → Option (Option Bytes))
    (codes : List AcceptCode) : Request → Option (List Bytes)
  | .offer keys =>
    match collect decodeKey keys with
    | none => none
    | some ks => provideLoop get (codes.zip ks)
  | .populated items =>
    some (((codes.zip items).filter (fun x => x.1 == .accepted)).map (fun x => x.2.2))

/-- `OverlayService::process_accept` (offer.rs:265-392) for the three kinds of offer; the traced offer
(`PopulatedOfferWithResult`) behaves as the populated one. `version` is the version common with the
peer. -/
def processAccept (version : Except Versions.Err Versions.Version) (decodeKey : Bytes → Option K)
    (get : K → Option (Option Bytes)) (connectionId : UInt16) (contentKeys : Bytes) (r : Request) : Sent :=
  match version with
  | .error _ => .error
  | .ok v =>
    match acceptDecode v.isV1Enabled contentKeys with
    | none => .error
    | some codes =>
      if allDeclined codes then .declined codes
      else
        let id := swap16 connectionId
        match contentItems decodeKey get codes r with
        | none => .failed
        | some items =>
          match Payload.encode items with
          | .error _ => .failed
          | .ok payload => .transmit id (id + 1) payload codes

/-! ## The receiving task -/

/-- `decode_payload` (offer.rs:667-687). -/
def decodePayload (accepted : List K) (data : Bytes) : Option (List (K × Bytes)) :=
  match Payload.decode data with
  | .error _ => none
  | .ok vals => if accepted.length ≠ vals.length then none else some (accepted.zip vals)

/-- The store as the task uses it: `should_we_store` and `put`, which returns the pruned content.
`none` is an error. -/
structure StoreOps (St K : Type) where
  wants : St → K → Option Decision
  put : St → K → Bytes → Option (St × List (K × Bytes))

/-- `store_content` (offer.rs:574-626): the store afterwards and the content to propagate. A failed
`put` is taken to leave the store as it was. -/
def storeContent {St : Type} (ops : StoreOps St K) (gossipDropped : Bool) (st : St) (k : K) (v : Bytes) :
    St × List (K × Bytes) :=
  match ops.wants st k with
  | some .store =>
    match ops.put st k v with
    | some (st', dropped) => (st', if gossipDropped then (k, v) :: dropped else [(k, v)])
    | none => (st, [(k, v)])
  | _ => (st, [(k, v)])

/-- Outcome of the whole task. `asked` are the fallback `FINDCONTENT` requests, `released` says the
inbound permit was given back. -/
structure TaskState (St K P : Type) where
  queue : List (Entry K P)
  store : St
  propagated : List (K × Bytes)
  asked : List (K × P)

/-- What the task asks of its surroundings. `valid` is `is_canonically_valid` of the validation
(offer.rs:537-566; one verdict per item, in order); `fetch` the content a fallback peer returned, if
any (offer.rs:462-509); `affected` is `affected_by_radius`. -/
structure TaskEnv (St K P : Type) where
  ops : StoreOps St K
  gossipDropped : Bool
  valid : K → Bytes → Bool
  affected : K → Bool
  fetch : K → P → Option Bytes
  pick : K → Nat

/-- `single_fallback_find_content` (offer.rs:439-532). -/
def singleFallback {St : Type} (env : TaskEnv St K P) (s : TaskState St K P) (k : K) :
    TaskState St K P :=
  if env.affected k = false then s
  else
    match processFailed s.queue k (env.pick k) with
    | (q, none) => { s with queue := q }
    | (q, some p) =>
      match env.fetch k p with
      | none => { s with queue := q, asked := s.asked ++ [(k, p)] }
      | some v =>
        if env.valid k v then
          let r := storeContent env.ops env.gossipDropped s.store k v
          ⟨q, r.1, s.propagated ++ r.2, s.asked ++ [(k, p)]⟩
        else { s with queue := q, asked := s.asked ++ [(k, p)] }

/-- `fallback_find_content` (offer.rs:406-431). The code runs one task per key concurrently; here they
run one after the other, in the order of the keys. -/
def fallbacks {St : Type} (env : TaskEnv St K P) (s : TaskState St K P) (ks : List K) :
    TaskState St K P := ks.foldl (singleFallback env) s

/-- The loop over the validated content (offer.rs:231-242): also the keys that failed. -/
def storeValidated {St : Type} (env : TaskEnv St K P) :
    TaskState St K P → List (K × Bytes) → TaskState St K P × List K
  | s, [] => (s, [])
  | s, (k, v) :: rest =>
    if env.valid k v then
      let r := storeContent env.ops env.gossipDropped s.store k v
      storeValidated env
        { s with
          queue := removeKey s.queue k
          store := r.1
          propagated := s.propagated ++ r.2 } rest
    else
      let out := storeValidated env s rest
      (out.1, k :: out.2)

/-- The spawned task (offer.rs:185-255). `data` is what arrived over uTP, `none` an error. -/
def inboundTask {St : Type} (env : TaskEnv St K P) (s : TaskState St K P) (accepted : List K)
    (data : Option Bytes) : TaskState St K P :=
  match data with
  | none => fallbacks env s accepted
  | some bytes =>
    match decodePayload accepted bytes with
    | none => fallbacks env s accepted
    | some items =>
      let out := storeValidated env s items
      fallbacks env out.1 out.2

end Verif.Offer
