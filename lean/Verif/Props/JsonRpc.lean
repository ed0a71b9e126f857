import Verif.Lemmas.JsonRpc
import Verif.Props.StateContent
import Verif.Props.BeaconValue
import Verif.Props.HistoryValue
import Verif.Props.ContentKey
import Verif.Props.Distance

/-! # C83: the JSON-RPC methods answer with what the network did -/

namespace Verif.Props
open Verif.JsonRpc Verif.Props.Rpc
open Verif.Wire (ExtType)

variable {E K V U σ α : Type}

theorem rpc_value {β : Type} (l : Lib E U) (n : Net K V) (w : World σ E K U) (text : List Char) (m : Method E K U β)
    (k : K) (value : Bytes) (s : σ) (ep : V → Endpoint E K V) (f : Bytes → Answer β × σ)
    (hr : request l n m = (decodeValue n k value).map ep)
    (hf : ∀ v, (proxy l (output l n m) (handle l n w text (ep v) s).1, (handle l n w text (ep v) s).2) = f (n.encode v)) :
    call l n w text m s = withValue n k value s f := by
  unfold call withValue
  rw [hr, decodeValue]
  cases n.decode k value with
  | value v => exact hf v
  | malformed => rfl
  | abort => rfl

theorem rpc_items {β : Type} (n : Net K V) (s : σ) (f : List (Bytes × Bytes) → Answer β × σ) (items : List (K × Bytes)) :
    withItems n s items f =
      match decodeItems n items with
      | .ok vs => f (vs.map fun i => (n.keyBytes i.1, n.encode i.2))
      | .err e => (.err e, s)
      | .abort => (.abort, s) := by
  induction items generalizing f with
  | nil => rfl
  | cons i items ih =>
    obtain ⟨k, value⟩ := i
    simp only [withItems, withValue, decodeItems, decodeValue]
    cases n.decode k value with
    | malformed => rfl
    | abort => rfl
    | value v =>
      simp only [ih]
      cases decodeItems n items <;> rfl

theorem rpc_ping {β : Type} (l : Lib E U) (n : Net K V) (t : Option ExtType) (p : Option Json) (s : σ)
    (f : Option PingExt.Ext → Answer β × σ) :
    withPing l n t p s f =
      match parsePing l n.supported t p with
      | .ok x => f x.2
      | .err e => (.err e, s)
      | .abort => (.abort, s) := by
  cases t with
  | none => cases p <;> rfl
  | some t =>
    cases t with
    | nonSupported x => rfl
    | _ =>
      simp only [withPing, parsePing]
      split
      · rename_i h
        rw [if_pos (by simpa using h)]
      · rename_i h
        rw [if_neg (by simpa using h)]
        cases p with
        | none => rfl
        | some p =>
          dsimp only
          split <;> rename_i hx <;> simp [hx]

theorem rpc_ping_type {l : Lib E U} {n : Net K V} {t : Option ExtType} {p : Option Json} {x : Option ExtType × Option PingExt.Ext}
    (h : parsePing l n.supported t p = .ok x) : x.1 = t := by
  unfold parsePing at h
  split at h
  · cases h
  · split at h
    · cases h
    · split at h
      · cases h; rfl
      · split at h <;> cases h; rfl
  · cases h
  · cases h; rfl

theorem rpc_client {β : Type} (l : Lib E U) (w : World σ E K U) (s : σ) (of : Json → Option β) {γ : Type}
    (get : Client U → Option γ) (to : γ → Json) (f : γ → β)
    (h : ∀ c x, w.client s = some c → get c = some x → of (to x) = some (f x)) :
    (proxy l of (clientAnswer get to (w.client s)), s) = client w s fun c => (get c).map f := by
  unfold client clientAnswer
  cases hc : w.client s with
  | none => rfl
  | some c =>
    cases hg : get c with
    | none => simp [answerOpt, hg, proxy, toldOpt, failed, messageErr]
    | some x => simp [answerOpt, hg, proxy, toldOpt, h c x hc hg]

theorem rpc_notFound {β : Type} {l : Lib E U} (hl : Readable l) (of : Json → Option β) (isTrace : Bool)
    (f : Bytes → Bool → Option (QueryTrace E) → Option β) (msg : List Char) (u : Bool) (t : Option (QueryTrace E))
    (ht : ∀ x, t = some x → TraceFits x) :
    proxy l of (lookedJson l isTrace (.notFound msg u t)) = lookedUp l f (.notFound msg u t) := by
  have hn : notLocated = locateText := rfl
  unfold lookedUp
  rw [hn]
  unfold lookedJson proxy
  dsimp only
  generalize msg ++ ": utp: ".toList ++ (if u then "true".toList else "false".toList) = m
  generalize locateText = needle
  rw [asOption_trace hl t ht]
  by_cases h : Occurs needle m
  · rw [if_pos ((contains_iff _ _).mpr h), if_pos h]
    cases t <;> rfl
  · rw [if_neg (fun h' => h ((contains_iff _ _).mp h')), if_neg h]
    rfl

/-- Every method of every subnetwork makes exactly the call that its parameters say, answers with the result of that call, and
with an error if there is none; the JSON in between loses and changes nothing. Invalid parameters are refused without
any effect. -/
theorem C83_answers (l : Lib E U) (n : Net K V) (w : World σ E K U) (hl : Readable l) (hw : Fits n w) (text : List Char)
    (m : Method E K U α) (s : σ) : call l n w text m s = expected l n w m s := by
  cases m with
  | routingTableInfo => simp [call, request, handle, output, proxy, expected, asRouting_json hl]
  | addEnr e =>
    simp only [call, request, handle, output, expected]
    cases (w.addEnr e s).1 <;> rfl
  | getEnr i =>
    simp only [call, request, handle, output, expected]
    cases (w.getEnr i s).1 <;> simp [answer, proxy, told, failed, messageErr, asEnr_enr hl]
  | deleteEnr i => simp [call, request, handle, output, proxy, expected, Json.asBool]
  | lookupEnr i =>
    simp only [call, request, handle, output, expected]
    cases (w.lookupEnr i s).1 <;> simp [answer, proxy, told, failed, messageErr, asEnr_enr hl]
  | ping e t p =>
    simp only [expected, rpc_ping, call, request]
    cases hx : parsePing l n.supported t p with
    | err e => rfl
    | abort => rfl
    | ok x =>
      simp only [Answer.map, handle, output, rpc_ping_type hx]
      cases (w.sendPing e t x.2 s).1 with
      | error e => rfl
      | ok b =>
        simp only [pongAnswer, pong]
        cases hd : PingExt.decodeExt l.utf8 b.payloadType b.payload with
        | none => rfl
        | some y =>
          simp only [proxy, asPong_json ⟨b.enrSeq.toNat, b.payloadType, extJson l y⟩ b.enrSeq.toNat_lt (decodeExt_type hd)]
  | findNodes e ds =>
    simp only [call, request, handle, output, expected]
    cases (w.findNodes e ds s).1 with
    | error e => rfl
    | ok es => simp [answer, proxy, told, asList_map l.asEnr l.enr es fun e _ => asEnr_enr hl e]
  | recursiveFindNodes i =>
    simp only [call, request, handle, output, expected, proxy,
      asList_map l.asEnr l.enr (w.lookupNode i s).1 fun e _ => asEnr_enr hl e]
  | radius => simp only [call, request, handle, output, expected, proxy, asU256_u256 hl (hw.radius s)]
  | findContent e k =>
    simp only [call, request, handle, output, expected]
    cases (w.findContent e (n.keyBytes k) s).1 with
    | error e => rfl
    | ok r =>
      obtain ⟨c, u⟩ := r
      cases c with
      | connectionId x => rfl
      | content c => simp only [foundJson, proxy, contentOf, asFindContent_content]
      | enrs es => simp only [foundJson, proxy, contentOf, asFindContent_enrs hl]
  | getContent k =>
    simp only [call, request, handle, output, expected]
    cases hr : (w.lookupContent k false s).1 with
    | failed => rfl
    | found c u t => simp [lookedJson, proxy, lookedUp, toldOpt, asContent_json]
    | notFound msg u t =>
      rw [rpc_notFound hl _ _ _ msg u t fun x hx => hw.lost k false s msg u x (by rw [hr, hx])]
  | traceGetContent k =>
    simp only [call, request, handle, output, expected]
    cases hr : (w.lookupContent k true s).1 with
    | failed => rfl
    | found c u t =>
      cases t with
      | none => rfl
      | some t => simp [lookedJson, proxy, lookedUp, toldOpt, asTraced_json hl c u t (hw.found k true s c u t hr)]
    | notFound msg u t =>
      rw [rpc_notFound hl _ _ _ msg u t fun x hx => hw.lost k true s msg u x (by rw [hr, hx])]
  | paginate o m =>
    simp only [call, request, handle, output, expected]
    cases hr : (w.paginate o m s).1 with
    | none => rfl
    | some p => simp [answerOpt, proxy, toldOpt, asPage_json p (hw.page o m s p.1 p.2 hr).1 (hw.page o m s p.1 p.2 hr).2]
  | putContent k v =>
    simp only [expected]
    refine rpc_value l n w text (.putContent k v) k v s (fun v => .putContent k v) _ rfl fun x => ?_
    simp only [handle, output, proxy, asPut_json _ (hw.peers k (n.encode x) s)]
  | offer e items =>
    simp only [call, request, expected, rpc_items]
    split
    · rename_i h
      split at h
      · rw [if_neg (by omega)]
        cases hd : decodeItems n items with
        | ok vs => simp [hd, Answer.map] at h
        | err e => simp [hd, Answer.map] at h; simp [h]
        | abort => simp [hd, Answer.map] at h
      · rw [if_pos (by omega)]
        cases h; rfl
    · rename_i h
      split at h
      · rw [if_neg (by omega)]
        cases hd : decodeItems n items with
        | ok vs => simp [hd, Answer.map] at h
        | err e => simp [hd, Answer.map] at h
        | abort => rfl
      · cases h
    · rename_i ep h
      split at h
      · rw [if_neg (by omega)]
        cases hd : decodeItems n items with
        | err e => simp [hd, Answer.map] at h
        | abort => simp [hd, Answer.map] at h
        | ok vs =>
          simp only [hd, Answer.map, Answer.ok.injEq] at h
          subst h
          simp only [handle, output]
          cases hr : (w.sendOffer e (vs.map fun i => (n.keyBytes i.1, n.encode i.2)) s).1 with
          | error e => rfl
          | ok codes => simp [answer, proxy, told, asAccept_json codes (hw.codes _ _ _ _ hr)]
      · cases h
  | traceOffer e k v =>
    simp only [expected]
    refine rpc_value l n w text (.traceOffer e k v) k v s (fun v => .traceOffer e k v) _ rfl fun x => ?_
    simp only [handle, output]
    cases (w.sendOfferTrace e (n.keyBytes k) (n.encode x) s).1 with
    | error e => rfl
    | ok t => simp [answer, proxy, told, asOfferTrace_json]
  | store k v =>
    simp only [expected]
    refine rpc_value l n w text (.store k v) k v s (fun v => .store k v) _ rfl fun x => ?_
    simp only [handle, output]
    cases (w.put k (n.encode x) s).1 with
    | some _ => rfl
    | none =>
      simp only [putAnswer]
      split <;> rfl
  | localContent k =>
    simp only [call, request, handle, output, expected]
    cases (w.get k s).1 with
    | error e => rfl
    | ok r =>
      cases r with
      | some b => simp [storedJson, proxy, storedFor, asBytes_bytes]
      | none =>
        simp only [storedJson, storedFor]
        split
        · rfl
        · have : Lookup.contains locateText
            "Content not found in local storage".toList = false := by decide
          simp only [proxy, this]; rfl
  | optimisticStateRoot =>
    exact rpc_client l w s l.asHash Client.header (fun h => l.hash h.stateRoot) Header.stateRoot
      fun c x _ _ => asHash_hash hl _
  | finalizedStateRoot =>
    exact rpc_client l w s l.asHash Client.finalizedHeader (fun h => l.hash h.stateRoot) Header.stateRoot
      fun c x _ _ => asHash_hash hl _
  | finalizedHeader =>
    have := rpc_client l w s (asHeader l) Client.finalizedHeader (headerJson l) id
      fun c x hc hx => asHeader_json hl x (hw.final s c x hc hx)
    simpa [call, request, handle, output, expected] using this
  | optimisticUpdate =>
    have := rpc_client l w s l.updateOf Client.optimisticUpdate l.update id fun c x _ _ => hl.update x
    simpa [call, request, handle, output, expected] using this
  | finalityUpdate =>
    have := rpc_client l w s l.updateOf Client.finalityUpdate l.update id fun c x _ _ => hl.update x
    simpa [call, request, handle, output, expected] using this
  | lightClientStore =>
    have := rpc_client l w s l.updateOf Client.store l.update id fun c x _ _ => hl.update x
    simpa [call, request, handle, output, expected] using this

/-- A value that is not one of its key is refused by every method that takes it, and nothing happens: not stored, not
offered, not gossiped, also none of the other items of the same offer. -/
theorem C83_invalid (l : Lib E U) (n : Net K V) (w : World σ E K U) (hl : Readable l) (hw : Fits n w) (text : List Char)
    (m : Method E K U α) (s : σ) (h : ∃ x ∈ values m, n.decode x.1 x.2 = .malformed)
    (ha : ∀ x ∈ values m, n.decode x.1 x.2 ≠ .abort) : call l n w text m s = (failed, s) := by
  rw [C83_answers l n w hl hw]
  have hitems : ∀ (items : List (K × Bytes)) (f : List (Bytes × Bytes) → Answer (List AcceptCode) × σ),
      (∃ x ∈ items, n.decode x.1 x.2 = .malformed) → (∀ x ∈ items, n.decode x.1 x.2 ≠ .abort) →
        withItems n s items f = (failed, s) := by
    intro items
    induction items with
    | nil => rintro f ⟨x, hx, _⟩; cases hx
    | cons i items ih =>
      intro f h ha
      simp only [withItems, withValue]
      cases hd : n.decode i.1 i.2 with
      | malformed => rfl
      | abort => exact absurd hd (ha i (by simp))
      | value v =>
        refine ih _ ?_ fun x hx => ha x (by simp [hx])
        obtain ⟨x, hx, hm⟩ := h
        rcases List.mem_cons.mp hx with rfl | hx
        · rw [hd] at hm; cases hm
        · exact ⟨x, hx, hm⟩
  cases m <;> simp only [values, List.mem_singleton, List.not_mem_nil, exists_eq_left, false_and, exists_false] at h
  case putContent k v => simp [expected, withValue, h]
  case traceOffer e k v => simp [expected, withValue, h]
  case store k v => simp [expected, withValue, h]
  case offer e items =>
    simp only [expected]
    split
    · rfl
    · exact hitems items _ h ha

/-- In the state network … -/
theorem C83_state_exact : Exact stateNet := by
  intro k b v h
  simp only [stateNet, JsonRpc.ofOption] at h
  cases hd : StateContent.Value.decode k b with
  | none => simp [hd] at h
  | some x =>
    simp only [hd, Decoded.value.injEq] at h
    subst h
    exact (C51_state_canonical k b x hd).1

/-- … and in the beacon network values have one encoding, … -/
theorem C83_beacon_exact : Exact beaconNet := by
  intro k b v h
  simp only [beaconNet] at h
  split at h
  · rename_i x hd
    cases h
    exact (C54_canonical k b _ hd).2
  · cases h
  · cases h

/-- … so that the bytes which are stored, offered and gossiped are those that were given. -/
theorem C83_given (l : Lib E U) (n : Net K V) (w : World σ E K U) (hl : Readable l) (hw : Fits n w) (he : Exact n)
    (text : List Char) (s : σ) :
    (∀ k b, (∃ v, n.decode k b = .value v) →
      call l n w text (.store k b) s = (toldOpt (fun _ => true) (w.put k b s).1, (w.put k b s).2) ∧
      call l n w text (.putContent k b) s = (.ok (w.putContent k b s).1, (w.putContent k b s).2) ∧
      ∀ e, call l n w text (.traceOffer e k b) s =
        (told id (w.sendOfferTrace e (n.keyBytes k) b s).1, (w.sendOfferTrace e (n.keyBytes k) b s).2)) ∧
    ∀ e (items : List (K × Bytes)), items ≠ [] → items.length ≤ 64 →
      (∀ x ∈ items, ∃ v, n.decode x.1 x.2 = .value v) →
      call l n w text (.offer e items) s =
        (told id (w.sendOffer e (items.map fun x => (n.keyBytes x.1, x.2)) s).1,
          (w.sendOffer e (items.map fun x => (n.keyBytes x.1, x.2)) s).2) := by
  constructor
  · rintro k b ⟨v, hv⟩
    have hb := he k b v hv
    refine ⟨?_, ?_, fun e => ?_⟩ <;> rw [C83_answers l n w hl hw] <;> simp [expected, withValue, hv, hb]
  · intro e items hne hlen hall
    rw [C83_answers l n w hl hw]
    have hitems : ∀ (items : List (K × Bytes)) (f : List (Bytes × Bytes) → Answer (List AcceptCode) × σ),
        (∀ x ∈ items, ∃ v, n.decode x.1 x.2 = .value v) →
          withItems n s items f = f (items.map fun x => (n.keyBytes x.1, x.2)) := by
      intro items
      induction items with
      | nil => intro f _; rfl
      | cons i items ih =>
        intro f h
        obtain ⟨v, hv⟩ := h i (by simp)
        simp only [withItems, withValue, hv, he _ _ _ hv, List.map_cons]
        exact ih _ fun x hx => h x (by simp [hx])
    have hpos : 0 < items.length := List.length_pos_iff.mpr hne
    simp only [expected]
    rw [if_neg (by omega), hitems items _ hall]

section legacy
variable {Hd Tx Rc Wd : Type} {lib : HistoryValue.Lib Hd Tx Rc Wd} {net : HeaderValidator.Net}

/-- In the legacy history network the bytes are those of the value that was read: they are no longer than those that were given, and
the same if they are as long. -/
theorem C83_legacy_exact_partial (hlib : lib.Faithful) (k : ContentKey.Legacy) (b : Bytes) (v : HistoryValue.Value Hd Tx Rc Wd)
    (h : (legacyNet lib net).decode k b = .value v) :
    v.encode lib = some ((legacyNet lib net).encode v) ∧ ((legacyNet lib net).encode v).length ≤ b.length ∧
      (((legacyNet lib net).encode v).length = b.length → (legacyNet lib net).encode v = b) := by
  simp only [legacyNet, JsonRpc.ofOption] at h
  cases hd : HistoryValue.Value.decode lib net k b with
  | none => simp [hd] at h
  | some x =>
    simp only [hd, Decoded.value.injEq] at h
    subst h
    obtain ⟨_, e, he, hs⟩ := C57_decode_partial hlib hd
    simp only [legacyNet, he, Option.getD_some]
    exact ⟨trivial, hs⟩

/-- There the bytes which are stored need **not** be those that were given: for every header there is a value that is taken,
and other bytes are stored. -/
theorem C83_legacy_exact_violated (hlib : lib.Faithful) (h : Hd) (p : HeaderValidator.HeaderProof)
    (hlen : (lib.header.enc h).length < 2048) (hk : p.kind = HeaderValidator.decodedKind net (lib.hdr h)) :
    ∃ given stored, given ≠ stored ∧
      ∀ (l : Lib E U) (w : World σ E ContentKey.Legacy U) (text : List Char) (s : σ) (hash : Id), Readable l →
        Fits (legacyNet lib net) w →
        call l (legacyNet lib net) w text (.store (.headerByHash hash) given) s =
          (toldOpt (fun _ => true) (w.put (.headerByHash hash) stored s).1, (w.put (.headerByHash hash) stored s).2) := by
  obtain ⟨b, hb, hd, _⟩ := C57_header_canonical_violated (Tx := Tx) (Rc := Rc) (Wd := Wd) (lib := lib) (net := net) hlib h p hlen hk
  have hd0 := hd 0
  obtain ⟨_, e, he, _⟩ := C57_decode_partial hlib hd0
  refine ⟨b, e, fun hbe => hb (by rw [hbe, he]), ?_⟩
  intro l w text s hash hl hw
  rw [C83_answers l _ w hl hw]
  simp [expected, withValue, legacyNet, hd hash, JsonRpc.ofOption, he]

end legacy

/-- A short value makes the task panic that serves the request, in the beacon network. -/
theorem C83_total_violated (l : Lib E U) (w : World σ E ContentKey.Beacon U) (text : List Char) (s : σ) (root : Id) (b : Bytes)
    (h : b.length < 4) : call l beaconNet w text (.store (.bootstrap root) b) s = (.abort, s) := by
  have := (C54_abort (.bootstrap root) b (by intro _ _; exact nofun)).mpr ⟨h, by intro _; exact nofun⟩
  simp [call, request, decodeValue, beaconNet, this, Answer.map]

/-- What users see of a pong: the fields of the payload by type. -/
theorem C83_payloads (l : Lib E U) (radius : Nat) (info : PingExt.ClientInfo) (caps : List ExtType) (headers code : UInt16)
    (message : Bytes) :
    extJson l (.capabilities (some info) radius caps) = .obj [("clientInfo".toList, .str (l.text info.format)),
      ("dataRadius".toList, .str (l.u256Str radius)), ("capabilities".toList, .arr (caps.map fun c => .num c.toU16.toNat))] ∧
    extJson l (.capabilities none radius caps) = .obj [("clientInfo".toList, .null),
      ("dataRadius".toList, .str (l.u256Str radius)), ("capabilities".toList, .arr (caps.map fun c => .num c.toU16.toNat))] ∧
    extJson l (.basicRadius radius) = .obj [("dataRadius".toList, .str (l.u256Str radius))] ∧
    extJson l (.historyRadius radius headers) = .obj [("dataRadius".toList, .str (l.u256Str radius)),
      ("ephemeralHeaderCount".toList, .num headers.toNat)] ∧
    extJson l (.error code message) = .obj [("errorCode".toList, .num code.toNat),
      ("message".toList, .arr (message.map fun b => .num b.toNat))] := ⟨rfl, rfl, rfl, rfl, rfl⟩

/-- The fields of the other answers. -/
theorem C83_format (l : Lib E U) (n : Net K V) (b : Bytes) (u : Bool) (t : QueryTrace E) (p : Overlay.PutInfo) (ks : List K)
    (total : Nat) (codes : List AcceptCode) (c : AcceptCode) (q : PongInfo) (ids : List (List Id)) (i : Id) :
    contentJson b u = .obj [("content".toList, .str (Hex.hexEncode b)), ("utpTransfer".toList, .bool u)] ∧
    tracedJson l b u t = .obj [("content".toList, .str (Hex.hexEncode b)), ("utpTransfer".toList, .bool u),
      ("trace".toList, traceJson l t)] ∧
    putJson p = .obj [("peerCount".toList, .num p.peerCount), ("storedLocally".toList, .bool p.storedLocally)] ∧
    pageJson n (ks, total) = .obj [("contentKeys".toList, .arr (ks.map fun k => .str (Hex.hexEncode (n.keyBytes k)))),
      ("totalEntries".toList, .num total)] ∧
    acceptJson codes = .str (Hex.hexEncode (codes.map AcceptCode.toByte)) ∧
    offerTraceJson (.success c) = .obj [("Success".toList, .num c.toByte.toNat)] ∧
    offerTraceJson .failed = .str "Failed".toList ∧
    pongJson q = .obj [("enrSeq".toList, .num q.enrSeq), ("payloadType".toList, .num q.payloadType.toU16.toNat),
      ("payload".toList, q.payload)] ∧
    routingJson l ⟨i, ids⟩ = .obj [("localNodeId".toList, .str (l.idStr i)),
      ("buckets".toList, .arr (ids.map fun b => .arr (b.map fun i => .str (l.idStr i))))] :=
  ⟨rfl, rfl, rfl, rfl, rfl, rfl, rfl, rfl, rfl⟩

/-- The fields of a trace. -/
theorem C83_trace_format (l : Lib E U) (t : QueryTrace E) (r : Nat × List Id) (f : Nat × FailureKind) (i : NodeInfo E) :
    traceJson l t = .obj [("receivedFrom".toList, match t.receivedFrom with | some i => .str (l.idStr i) | none => .null),
      ("origin".toList, .str (l.idStr t.origin)),
      ("responses".toList, .obj (t.responses.map fun r => (l.idStr r.1, responseJson l r.2))),
      ("failures".toList, .obj (t.failures.map fun r => (l.idStr r.1, failureJson r.2))),
      ("metadata".toList, .obj (t.metadata.map fun r => (l.idStr r.1, nodeJson l r.2))),
      ("startedAtMs".toList, .num t.startedAtMs), ("targetId".toList, .str (l.hashStr t.targetId)),
      ("cancelled".toList, .arr (t.cancelled.map fun i => .str (l.idStr i)))] ∧
    responseJson l r = .obj [("durationMs".toList, .num r.1), ("respondedWith".toList, .arr (r.2.map fun i => .str (l.idStr i)))] ∧
    failureJson f = .obj [("durationMs".toList, .num f.1), ("failure".toList, .str (match f.2 with
      | .utpConnectionFailed => "utpConnectionFailed".toList
      | .utpTransferFailed => "utpTransferFailed".toList
      | .invalidContent => "invalidContent".toList))] ∧
    nodeJson l i = .obj [("enr".toList, .str (l.enrStr i.enr)), ("distance".toList, .str (l.hashStr i.distance)),
      ("radius".toList, match i.radius with | some r => .str (l.hashStr r) | none => .null)] := by
  refine ⟨?_, rfl, ?_, ?_⟩
  · unfold traceJson; cases t.receivedFrom <;> rfl
  · obtain ⟨a, k⟩ := f; cases k <;> rfl
  · unfold nodeJson; cases i.radius <;> rfl

/-! ## discv5 -/

theorem search_iff (nodeId : E → Id) (ask : E → List Nat → Option (List E)) (target : Id) (es : List E) (e : E) :
    searchPeers nodeId ask target es = some e ↔
      ∃ before p after, es = before ++ p :: after ∧
        (∀ q ∈ before, nodeId q ≠ target ∧ ∃ found, ask q [256] = some found ∧ ∀ x ∈ found, nodeId x ≠ target) ∧
        ((nodeId p = target ∧ e = p) ∨
          (nodeId p ≠ target ∧ ∃ pre post, ask p [256] = some (pre ++ e :: post) ∧ nodeId e = target ∧
            ∀ x ∈ pre, nodeId x ≠ target)) := by
  induction es with
  | nil => simp [searchPeers]
  | cons q es ih =>
    have hcons : (∃ before p after, q :: es = before ++ p :: after ∧
        (∀ q ∈ before, nodeId q ≠ target ∧ ∃ found, ask q [256] = some found ∧ ∀ x ∈ found, nodeId x ≠ target) ∧
        ((nodeId p = target ∧ e = p) ∨
          (nodeId p ≠ target ∧ ∃ pre post, ask p [256] = some (pre ++ e :: post) ∧ nodeId e = target ∧
            ∀ x ∈ pre, nodeId x ≠ target))) ↔
        (((nodeId q = target ∧ e = q) ∨
          (nodeId q ≠ target ∧ ∃ pre post, ask q [256] = some (pre ++ e :: post) ∧ nodeId e = target ∧
            ∀ x ∈ pre, nodeId x ≠ target)) ∨
        ((nodeId q ≠ target ∧ ∃ found, ask q [256] = some found ∧ ∀ x ∈ found, nodeId x ≠ target) ∧
          searchPeers nodeId ask target es = some e)) := by
      rw [ih]
      constructor
      · rintro ⟨before, p, after, hes, hb, hp⟩
        cases before with
        | nil =>
          simp only [List.nil_append, List.cons.injEq] at hes
          obtain ⟨rfl, rfl⟩ := hes
          exact .inl hp
        | cons r before =>
          simp only [List.cons_append, List.cons.injEq] at hes
          obtain ⟨rfl, rfl⟩ := hes
          exact .inr ⟨hb q (by simp), before, p, after, rfl, fun x hx => hb x (by simp [hx]), hp⟩
      · rintro (hp | ⟨hq, before, p, after, hes, hb, hp⟩)
        · exact ⟨[], q, es, rfl, by simp, hp⟩
        · refine ⟨q :: before, p, after, by simp [hes], ?_, hp⟩
          intro x hx
          rcases List.mem_cons.mp hx with rfl | hx
          · exact hq
          · exact hb x hx
    rw [hcons]
    simp only [searchPeers]
    by_cases hq : nodeId q = target
    · simp only [hq, if_true, Option.some.injEq, ne_eq, not_true_eq_false, false_and, or_false, true_and]
      exact eq_comm
    · simp only [hq, if_false, false_and, false_or, ne_eq, not_false_eq_true, true_and]
      cases ha : ask q [256] with
      | none => simp
      | some found =>
        simp only [Option.some.injEq]
        cases hf : found.find? fun x => decide (nodeId x = target) with
        | none =>
          have hno : ∀ x ∈ found, nodeId x ≠ target := by simpa using hf
          constructor
          · intro h
            exact .inr ⟨⟨found, rfl, hno⟩, h⟩
          · rintro (⟨pre, post, rfl, he, _⟩ | ⟨_, h⟩)
            · exact absurd he (hno e (by simp))
            · exact h
        | some x =>
          obtain ⟨hx, pre, post, rfl, hpre⟩ := List.find?_eq_some_iff_append.mp hf
          simp only [decide_eq_true_eq, Bool.not_eq_eq_eq_not, Bool.not_true, decide_eq_false_iff_not] at hx hpre
          simp only [Option.some.injEq]
          constructor
          · rintro rfl
            exact .inl ⟨pre, post, rfl, hx, hpre⟩
          · rintro (⟨pre', post', heq, he, hpre'⟩ | ⟨⟨_, rfl, hno⟩, _⟩)
            · have h1 : (pre ++ x :: post).find? (fun y => decide (nodeId y = target)) = some e := by
                rw [heq]
                exact List.find?_eq_some_iff_append.mpr ⟨by simpa using he, pre', post', rfl, by simpa using hpre'⟩
              rw [hf] at h1
              exact Option.some.inj h1
            · exact absurd hx (hno x (by simp))

/-- `discv5_lookupEnr` answers with a record exactly if it is the first one with that node id in the order of the peers that
a search for the id finds, each followed by the nodes that it names at distance 256, and all peers before answered. -/
theorem C83_discv5_lookup (nodeId : E → Id) (closest : Id → Option (List E)) (ask : E → List Nat → Option (List E))
    (target : Id) (e : E) :
    discv5LookupEnr nodeId closest ask target = .ok e ↔
      ∃ before p after, closest target = some (before ++ p :: after) ∧
        (∀ q ∈ before, nodeId q ≠ target ∧ ∃ found, ask q [256] = some found ∧ ∀ x ∈ found, nodeId x ≠ target) ∧
        ((nodeId p = target ∧ e = p) ∨
          (nodeId p ≠ target ∧ ∃ pre post, ask p [256] = some (pre ++ e :: post) ∧ nodeId e = target ∧
            ∀ x ∈ pre, nodeId x ≠ target)) := by
  unfold discv5LookupEnr
  cases hc : closest target with
  | none => simp
  | some es =>
    simp only [Option.some.injEq]
    have := search_iff nodeId ask target es e
    rw [← this]
    cases searchPeers nodeId ask target es <;> simp

/-- A record in the answer is one of the node that was asked for. -/
theorem C83_discv5_right (nodeId : E → Id) (closest : Id → Option (List E)) (ask : E → List Nat → Option (List E))
    (target : Id) (e : E) (h : discv5LookupEnr nodeId closest ask target = .ok e) : nodeId e = target := by
  obtain ⟨_, p, _, _, _, hp⟩ := (C83_discv5_lookup nodeId closest ask target e).mp h
  rcases hp with ⟨hp, rfl⟩ | ⟨_, _, _, _, he, _⟩
  · exact hp
  · exact he

/-- If nothing is found the answer is an error; it never aborts. -/
theorem C83_discv5_fails (nodeId : E → Id) (closest : Id → Option (List E)) (ask : E → List Nat → Option (List E))
    (target : Id) : (∃ e, discv5LookupEnr nodeId closest ask target = .ok e) ∨
      discv5LookupEnr nodeId closest ask target = failed := by
  unfold discv5LookupEnr
  split
  · exact .inr rfl
  · split
    · exact .inl ⟨_, rfl⟩
    · exact .inr rfl

/-- A peer that does not answer ends the lookup, whatever the peers after it know. -/
theorem C83_discv5_peer_violated (nodeId : E → Id) (closest : Id → Option (List E)) (ask : E → List Nat → Option (List E))
    (target : Id) (p : E) (es : List E) (hc : closest target = some (p :: es)) (hp : nodeId p ≠ target)
    (ha : ask p [256] = none) : discv5LookupEnr nodeId closest ask target = failed := by
  simp [discv5LookupEnr, hc, searchPeers, hp, ha, failed, messageErr]

/-- Peers are asked only for nodes at distance 256. If they answer as they should, they never name a node that is closer to
them: all of them may know the node and the lookup fails. -/
theorem C83_discv5_distance_violated (nodeId : E → Id) (closest : Id → Option (List E))
    (ask : E → List Nat → Option (List E)) (hh : Honest nodeId ask) (target : Id) (es : List E)
    (hc : closest target = some es) (hne : ∀ p ∈ es, nodeId p ≠ target)
    (hnear : ∀ p ∈ es, xorDistance (nodeId p) target < 2 ^ 255) :
    discv5LookupEnr nodeId closest ask target = failed := by
  cases h : discv5LookupEnr nodeId closest ask target with
  | err e =>
    unfold discv5LookupEnr at h
    rw [hc] at h
    dsimp only at h
    split at h <;> cases h
    rfl
  | abort =>
    unfold discv5LookupEnr at h
    rw [hc] at h
    dsimp only at h
    split at h <;> cases h
  | ok e =>
    obtain ⟨before, p, after, hes, _, hp⟩ := (C83_discv5_lookup nodeId closest ask target e).mp h
    rw [hc] at hes
    have hes := Option.some.inj hes
    have hmem : p ∈ es := by rw [hes]; simp
    rcases hp with ⟨hp, _⟩ | ⟨_, pre, post, ha, he, _⟩
    · exact absurd hp (hne p hmem)
    · obtain ⟨d, hd, hlog⟩ := hh p [256] _ e ha (by simp)
      simp only [List.mem_singleton] at hd
      subst hd
      rw [he] at hlog
      have hlt := hnear p hmem
      have := (C01_log2_iff _ _ (by omega)).mp hlog
      omega

/-- The local node's record, id and address; without an IPv4 address it is the text `None`. -/
theorem C83_node_info (l : Lib E U) (hl : Readable l) (nodeId : E → Id) (ip4 : E → Option (List Char)) (own : E) :
    nodeInfo l nodeId ip4 own = some ⟨own, nodeId own, some (match ip4 own with | some a => a | none => "None".toList)⟩ := by
  unfold nodeInfo
  rw [hl.enr]
  cases ip4 own <;> rfl

end Verif.Props

/-! ## Examples -/

namespace Verif.JsonRpcExample
open Verif.JsonRpc Verif.Props Verif.Props.Rpc
open Verif.Wire (ExtType)

def text (b : Bytes) : List Char := Hex.hexBody Hex.digit b
def untext (s : List Char) : Option Bytes := (Hex.hexBodyDecode s).toOption

/-- Records and updates are byte strings, and everything is written in hex. -/
def lib : Lib Bytes Bytes where
  enrStr := text
  enrOf := untext
  idStr i := text i.bytes
  idOf s := (untext s).map fun b => BitVec.ofNat 256 (fromBe b)
  hashStr i := text i.bytes
  hashOf s := (untext s).map fun b => BitVec.ofNat 256 (fromBe b)
  u256Str r := text (Id.bytes (BitVec.ofNat 256 r))
  u256Of s := (untext s).map fromBe
  update := Json.bytes
  updateOf := Json.asBytes
  utf8 _ := true
  text b := b.map fun x => Char.ofNat x.toNat
  payload t _ := if t = .basicRadius then some (.basicRadius 7) else none

theorem untext_text (b : Bytes) : untext (text b) = some b := by
  have h := decode_body _ (fun m => (digitVal_digit m).1) b
  simp [untext, text, h, Except.toOption]

example : Readable lib where
  enr e := untext_text e
  id i := by simp [lib, untext_text, Id.fromBe_bytes]
  hash i := by simp [lib, untext_text, Id.fromBe_bytes]
  u256 r hr := by simp [lib, untext_text, Id.fromBe_bytes, Nat.mod_eq_of_lt hr]
  update u := asBytes_bytes u

/-- A node with a store of three items at most, no peers but `[9]`, and no light client. -/
def world : World (List (ContentKey.State × Bytes)) Bytes ContentKey.State Bytes where
  routingTable _ := ⟨5, [[1, 2], []]⟩
  radius _ := 1000
  addEnr e s := (if e = [9] then .ok () else .error .failure, s)
  getEnr i s := (if i = 9 then .ok [9] else .error .failure, s)
  deleteEnr i s := (decide (i = 9), s)
  lookupEnr i s := (if i = 9 then .ok [9] else .error .failure, s)
  sendPing e t _ s := (if e = [9] then .ok ⟨3, t.getD .basicRadius, List.replicate 32 1⟩ else .error .transport, s)
  findNodes _ ds s := (.ok (if ds = [256] then [[9]] else []), s)
  lookupNode _ s := ([[9]], s)
  findContent e k s := (if e = [9] then .ok (.content k, false) else .ok (.enrs [[9]], false), s)
  lookupContent _ t s :=
    (.notFound (locateText ++ " before timeout".toList) false (if t then some ⟨none, 5, [(9, 12, [1])], [], [], 77, 4, []⟩ else none), s)
  paginate _ _ s := (some ([.bytecode 1 2], s.length % 1000), s)
  putContent k v s := (⟨1, true⟩, (k, v) :: s)
  sendOffer e items s := (if e = [9] then .ok ((items.map fun _ => .accepted).take 64) else .error .transport, s)
  sendOfferTrace _ _ _ s := (.ok .failed, s)
  put k v s := if s.length < 3 then (some (), (k, v) :: s) else (none, s)
  get k s := (.ok ((s.find? fun x => decide (x.1.toBytes = k.toBytes)).map Prod.snd), s)
  client _ := none

example : Fits stateNet world where
  radius _ := by simp [world]
  peers _ _ _ := by simp [world]
  page o m s ks total h := by
    simp only [world, Option.some.injEq, Prod.mk.injEq] at h
    obtain ⟨rfl, rfl⟩ := h
    refine ⟨by omega, ?_⟩
    intro k hk
    rw [List.mem_singleton.mp hk]
    exact C06_state_roundtrip (.bytecode 1 2) trivial
  codes e items s codes h := by
    simp only [world] at h
    split at h
    · cases h; simp; omega
    · cases h
  found k b s c u t h := by simp [world] at h
  lost k b s m u t h := by
    simp only [world, Looked.notFound.injEq] at h
    obtain ⟨_, _, h⟩ := h
    cases b
    · cases h
    · cases h; simp [TraceFits]
  header s c h hc := by simp [world] at hc
  final s c h hc := by simp [world] at hc

/-- The bytes of a contract's code are stored as they are, … -/
example : call lib stateNet world [] (.store (.bytecode 1 2) [4, 0, 0, 0, 96, 0]) [] =
    (.ok true, [(.bytecode 1 2, [4, 0, 0, 0, 96, 0])]) := by rfl
/-- … other bytes are refused, … -/
example : call lib stateNet world [] (.store (.bytecode 1 2) [5, 0, 0, 0]) [] = (failed, []) := by rfl
/-- … and a full store is an error. -/
example (a b c : ContentKey.State × Bytes) : call lib stateNet world [] (.store (.bytecode 1 2) [4, 0, 0, 0, 96, 0]) [a, b, c] =
    (failed, [a, b, c]) := by rfl
example : (call lib stateNet world [] (.offer [9] []) []).1 = failed := by rfl
example : (call lib stateNet world [] (.offer [9] [(.bytecode 1 2, [4, 0, 0, 0, 96])]) []).1 = .ok [.accepted] := by rfl
example : (call lib stateNet world [] (.ping [9] (some .historyRadius) none) []).1 =
    .err ⟨-39004, some (.str "subnetwork".toList)⟩ := by rfl
example : (call lib stateNet world [] (.ping [9] none (some .null)) []).1 = .err ⟨-39006, none⟩ := by rfl

/-- Every peer knows node 1, answers as it should, and the node is not found. -/
def ask (known : List Id) (p : Id) (ds : List Nat) : Option (List Id) :=
  some (known.filter fun x => ds.any fun d => decide (distLog2 (xorDistance p x) = some d))

theorem ask_honest (known : List Id) : Honest (fun i : Id => i) (ask known) := by
  rintro p ds found x h hx
  obtain rfl := Option.some.inj h
  obtain ⟨d, hd, h⟩ := List.any_eq_true.mp (List.mem_filter.mp hx).2
  exact ⟨d, hd, of_decide_eq_true h⟩

example : discv5LookupEnr (fun i : Id => i) (fun _ => some [2, 3]) (ask [1, 2, 3]) 1 = failed := by
  refine C83_discv5_distance_violated _ _ _ (ask_honest _) 1 [2, 3] rfl ?_ ?_
  · intro p hp; simp at hp; rcases hp with rfl | rfl <;> decide
  · intro p hp; simp at hp; rcases hp with rfl | rfl <;> decide +kernel
/-- At distance 256 it is found. -/
example : discv5LookupEnr (fun i : Id => i) (fun _ => some [2, 3]) (ask [1#256 <<< 255, 2, 3]) (1#256 <<< 255) =
    .ok (1#256 <<< 255) := by
  refine (C83_discv5_lookup _ _ _ _ _).mpr ⟨[], 2, [3], rfl, by simp, .inr ⟨by decide, [], [], ?_, rfl, by simp⟩⟩
  have : (ask [1#256 <<< 255, 2, 3] 2 [256]) == some [1#256 <<< 255] := by decide +kernel
  simpa using this

end Verif.JsonRpcExample
