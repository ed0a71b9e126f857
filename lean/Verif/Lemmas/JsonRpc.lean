import Verif.Props.JsonRpcSpec
import Verif.Props.Hex
import Verif.Props.AcceptCode
import Verif.Lemmas.Wire

/-! # Reading back the JSON of the answers -/

namespace Verif.JsonRpc
open Verif.Props Verif.Props.Rpc
open Verif.Wire (ExtType)

variable {E K V U σ α : Type} {l : Lib E U} {n : Net K V}

theorem mapM_map {α β γ : Type} (f : α → β) (g : β → Option γ) (h : α → γ) :
    (xs : List α) → (∀ x ∈ xs, g (f x) = some (h x)) → (xs.map f).mapM g = some (xs.map h) := by
  intro xs
  induction xs with
  | nil => intro _; rfl
  | cons x xs ih =>
    intro hx
    simp [List.mapM_cons, hx x (by simp), ih fun y hy => hx y (by simp [hy])]

theorem asList_map {β : Type} (of : Json → Option β) (to : β → Json) (xs : List β) (h : ∀ x ∈ xs, of (to x) = some x) :
    Json.asList of (.arr (xs.map to)) = some xs := by
  have := mapM_map to of id xs h
  simpa [Json.asList, Json.asArr] using this

theorem asMap_map {κ β : Type} (key : List Char → Option κ) (of : Json → Option β) (str : κ → List Char) (to : β → Json)
    (xs : List (κ × β)) (hk : ∀ k, key (str k) = some k) (h : ∀ x ∈ xs, of (to x.2) = some x.2) :
    Json.asMap key of (.obj (xs.map fun r => (str r.1, to r.2))) = some xs := by
  have := mapM_map (fun r : κ × β => (str r.1, to r.2)) (fun f => (key f.1).bind fun k => (of f.2).map fun v => (k, v)) id xs
    (fun x hx => by simp [hk, h x hx])
  simpa [Json.asMap] using this

theorem asBytes_bytes (b : Bytes) : (Json.bytes b).asBytes = some b := by
  have h := Verif.Props.decode_body _ (fun m => (Verif.Props.digitVal_digit m).1) b
  simp only [Json.bytes, Hex.hexEncode, Json.asBytes, h, Except.toOption]

theorem asEnr_enr (h : Readable l) (e : E) : l.asEnr (l.enr e) = some e := by
  simp [Lib.asEnr, Lib.enr, Json.asStr, h.enr]
theorem asId_id (h : Readable l) (i : Id) : l.asId (l.id i) = some i := by
  simp [Lib.asId, Lib.id, Json.asStr, h.id]
theorem asHash_hash (h : Readable l) (i : Id) : l.asHash (l.hash i) = some i := by
  simp [Lib.asHash, Lib.hash, Json.asStr, h.hash]
theorem asU256_u256 (h : Readable l) {r : Nat} (hr : r < 2 ^ 256) : l.asU256 (l.u256 r) = some r := by
  simp [Lib.asU256, Lib.u256, Json.asStr, h.u256 r hr]

theorem asNat_num {bits m : Nat} (h : m < 2 ^ bits) : (Json.num m).asNat bits = some m := by
  simp [Json.asNat, h]

theorem asOption_hash (h : Readable l) (o : Option Id) : Json.asOption l.asHash (some (.option l.hash o)) = some o := by
  cases o with
  | none => rfl
  | some i =>
    have : Json.asOption l.asHash (some (l.hash i)) = (l.asHash (l.hash i)).map some := rfl
    simp [Json.option, this, asHash_hash h]

theorem asOption_id (h : Readable l) (o : Option Id) : Json.asOption l.asId (some (.option l.id o)) = some o := by
  cases o with
  | none => rfl
  | some i =>
    have : Json.asOption l.asId (some (l.id i)) = (l.asId (l.id i)).map some := rfl
    simp [Json.option, this, asId_id h]

theorem asRouting_json (h : Readable l) (r : RoutingTableInfo) : asRouting l (routingJson l r) = some r := by
  have hb := asList_map (fun v => Json.asList l.asId v) (fun b : List Id => .arr (b.map l.id)) r.buckets
    (fun b _ => asList_map l.asId l.id b fun i _ => asId_id h i)
  have h1 : (routingJson l r).field "localNodeId".toList = some (l.id r.localNodeId) := rfl
  have h2 : (routingJson l r).field "buckets".toList = some (.arr (r.buckets.map fun b => .arr (b.map l.id))) := rfl
  simp only [asRouting, h1, h2, asId_id h, hb, Option.bind_some, Option.map_some]

theorem ext_ofU16 {t : ExtType} (h : ∀ m, t ≠ .nonSupported m) : ExtType.ofU16 t.toU16 = t := by
  cases t <;> first | rfl | exact absurd rfl (h _)

theorem asPong_json (p : PongInfo) (h : p.enrSeq < 2 ^ 64) (ht : ∀ m, p.payloadType ≠ .nonSupported m) :
    asPong (pongJson p) = some p := by
  have h1 : (pongJson p).field "enrSeq".toList = some (.num p.enrSeq) := rfl
  have h2 : (pongJson p).field "payloadType".toList = some (.num p.payloadType.toU16.toNat) := rfl
  have h3 : (pongJson p).field "payload".toList = some p.payload := rfl
  have h4 : (Json.num p.payloadType.toU16.toNat).asNat 16 = some p.payloadType.toU16.toNat :=
    asNat_num p.payloadType.toU16.toNat_lt
  simp only [asPong, h1, h2, h3, asNat_num h, h4, UInt16.ofNat_toNat, ext_ofU16 ht, Option.bind_some, Option.map_some]

theorem asAccept_json (codes : List AcceptCode) (h : codes.length ≤ 64) : asAccept (acceptJson codes) = some codes := by
  simp [asAccept, acceptJson, asBytes_bytes, C03_v1_roundtrip codes h]

theorem asOfferTrace_json (t : Overlay.Trace AcceptCode) : asOfferTrace (offerTraceJson t) = some t := by
  cases t with
  | failed => rfl
  | success c => cases c <;> rfl

theorem asPut_json (p : Overlay.PutInfo) (h : p.peerCount < 2 ^ 32) : asPut (putJson p) = some p := by
  have h1 : (putJson p).field "peerCount".toList = some (.num p.peerCount) := rfl
  have h2 : (putJson p).field "storedLocally".toList = some (.bool p.storedLocally) := rfl
  simp only [asPut, h1, h2, asNat_num h, Json.asBool, Option.bind_some, Option.map_some]

theorem asContent_json (c : Bytes) (u : Bool) : asContent (contentJson c u) = some (c, u) := by
  have h1 : (contentJson c u).field "content".toList = some (.bytes c) := rfl
  have h2 : (contentJson c u).field "utpTransfer".toList = some (.bool u) := rfl
  simp only [asContent, h1, h2, asBytes_bytes, Json.asBool, Option.bind_some, Option.map_some]

theorem asFindContent_content (c : Bytes) (u : Bool) : asFindContent l (contentJson c u) = some (.content c u) := by
  simp only [asFindContent, asContent_json, Option.bind_some, Option.map_some]

theorem asFindContent_enrs (h : Readable l) (es : List E) :
    asFindContent l (.obj [("enrs".toList, .arr (es.map l.enr))]) = some (.enrs es) := by
  have h0 : asContent (.obj [("enrs".toList, .arr (es.map l.enr))]) = none := rfl
  have h1 : (Json.obj [("enrs".toList, .arr (es.map l.enr))]).field "enrs".toList = some (.arr (es.map l.enr)) := rfl
  simp only [asFindContent, h0, h1, asList_map l.asEnr l.enr es fun e _ => asEnr_enr h e, Option.bind_some, Option.map_some]

theorem asResponse_json (h : Readable l) (r : Nat × List Id) (hr : r.1 < 2 ^ 64) :
    asResponse l (responseJson l r) = some r := by
  have h1 : (responseJson l r).field "durationMs".toList = some (.num r.1) := rfl
  have h2 : (responseJson l r).field "respondedWith".toList = some (.arr (r.2.map l.id)) := rfl
  simp only [asResponse, h1, h2, asNat_num hr, asList_map l.asId l.id r.2 fun e _ => asId_id h e, Option.bind_some, Option.map_some]

theorem failureOf_name (k : FailureKind) : failureOf k.name = some k := by cases k <;> rfl

theorem asFailure_json (r : Nat × FailureKind) (hr : r.1 < 2 ^ 64) : asFailure (failureJson r) = some r := by
  have h1 : (failureJson r).field "durationMs".toList = some (.num r.1) := rfl
  have h2 : (failureJson r).field "failure".toList = some (.str r.2.name) := rfl
  simp only [asFailure, h1, h2, asNat_num hr, Json.asStr, failureOf_name, Option.bind_some, Option.map_some]

theorem asNode_json (h : Readable l) (r : NodeInfo E) : asNode l (nodeJson l r) = some r := by
  have h1 : (nodeJson l r).field "enr".toList = some (l.enr r.enr) := rfl
  have h2 : (nodeJson l r).field "distance".toList = some (l.hash r.distance) := rfl
  have h3 : (nodeJson l r).field "radius".toList = some (.option l.hash r.radius) := rfl
  simp only [asNode, h1, h2, h3, asEnr_enr h, asHash_hash h, asOption_hash h, Option.bind_some, Option.map_some]

theorem asTrace_json (h : Readable l) (t : QueryTrace E) (ht : TraceFits t) : asTrace l (traceJson l t) = some t := by
  have h1 : (traceJson l t).field "receivedFrom".toList = some (.option l.id t.receivedFrom) := rfl
  have h2 : (traceJson l t).field "origin".toList = some (l.id t.origin) := rfl
  have h3 : (traceJson l t).field "responses".toList =
    some (.obj (t.responses.map fun r => (l.idStr r.1, responseJson l r.2))) := rfl
  have h4 : (traceJson l t).field "failures".toList =
    some (.obj (t.failures.map fun r => (l.idStr r.1, failureJson r.2))) := rfl
  have h5 : (traceJson l t).field "metadata".toList =
    some (.obj (t.metadata.map fun r => (l.idStr r.1, nodeJson l r.2))) := rfl
  have h6 : (traceJson l t).field "startedAtMs".toList = some (.num t.startedAtMs) := rfl
  have h7 : (traceJson l t).field "targetId".toList = some (l.hash t.targetId) := rfl
  have h8 : (traceJson l t).field "cancelled".toList = some (.arr (t.cancelled.map l.id)) := rfl
  have m3 := asMap_map l.idOf (asResponse l) l.idStr (responseJson l) t.responses h.id
    (fun x hx => asResponse_json h x.2 (ht.2.1 x hx))
  have m4 := asMap_map l.idOf asFailure l.idStr failureJson t.failures h.id (fun x hx => asFailure_json x.2 (ht.2.2 x hx))
  have m5 := asMap_map l.idOf (asNode l) l.idStr (nodeJson l) t.metadata h.id (fun x _ => asNode_json h x.2)
  simp only [asTrace, h1, h2, h3, h4, h5, h6, h7, h8, asOption_id h, asId_id h, m3, m4, m5, asNat_num ht.1, asHash_hash h,
    asList_map l.asId l.id t.cancelled (fun e _ => asId_id h e), Option.bind_some, Option.map_some]

theorem asTraced_json (h : Readable l) (c : Bytes) (u : Bool) (t : QueryTrace E) (ht : TraceFits t) :
    asTraced l (tracedJson l c u t) = some (c, u, t) := by
  have h0 : asContent (tracedJson l c u t) = asContent (contentJson c u) := rfl
  have h1 : (tracedJson l c u t).field "trace".toList = some (traceJson l t) := rfl
  simp only [asTraced, h0, asContent_json, h1, asTrace_json h t ht, Option.bind_some, Option.map_some]

theorem asOption_trace (h : Readable l) (t : Option (QueryTrace E)) (ht : ∀ x, t = some x → TraceFits x) :
    Json.asOption (asTrace l) (some (.option (traceJson l) t)) = some t := by
  cases t with
  | none => rfl
  | some t =>
    have : Json.asOption (asTrace l) (some (traceJson l t)) = (asTrace l (traceJson l t)).map some := rfl
    simp [Json.option, this, asTrace_json h t (ht t rfl)]

theorem asPage_json (p : List K × Nat) (hp : p.2 < 2 ^ 64) (h : ∀ k ∈ p.1, n.keyOf (n.keyBytes k) = some k) : asPage n (pageJson n p) = some p := by
  have h1 : (pageJson n p).field "contentKeys".toList = some (.arr (p.1.map fun k => .bytes (n.keyBytes k))) := rfl
  have h2 : (pageJson n p).field "totalEntries".toList = some (.num p.2) := rfl
  have := asList_map (fun x : Json => x.asBytes.bind n.keyOf) (fun k => .bytes (n.keyBytes k)) p.1
    (fun k hk => by simp [asBytes_bytes, h k hk])
  simp only [asPage, h1, h2, this, asNat_num hp, Option.bind_some, Option.map_some]

theorem asHeader_json (h : Readable l) (x : Header) (hx : HeaderFits x) : asHeader l (headerJson l x) = some x := by
  have h1 : (headerJson l x).field "slot".toList = some (.num x.slot) := rfl
  have h2 : (headerJson l x).field "proposer_index".toList = some (.num x.proposerIndex) := rfl
  have h3 : (headerJson l x).field "parent_root".toList = some (l.hash x.parentRoot) := rfl
  have h4 : (headerJson l x).field "state_root".toList = some (l.hash x.stateRoot) := rfl
  have h5 : (headerJson l x).field "body_root".toList = some (l.hash x.bodyRoot) := rfl
  simp only [asHeader, h1, h2, h3, h4, h5, asNat_num hx.1, asNat_num hx.2, asHash_hash h, Option.bind_some, Option.map_some]

theorem contains_iff (t : List Char) (s : List Char) : Lookup.contains t s = true ↔ Occurs t s := by
  induction s with
  | nil =>
    simp only [Lookup.contains, List.isEmpty_iff, Occurs]
    constructor
    · rintro rfl; exact ⟨[], [], rfl⟩
    · rintro ⟨a, b, h⟩
      have := List.append_eq_nil_iff.mp h.symm
      exact (List.append_eq_nil_iff.mp this.1).2
  | cons c cs ih =>
    simp only [Lookup.contains, Bool.or_eq_true, ih, List.isPrefixOf_iff_prefix]
    constructor
    · rintro (⟨b, h⟩ | ⟨a, b, h⟩)
      · exact ⟨[], b, by simp [h]⟩
      · exact ⟨c :: a, b, by simp [h]⟩
    · rintro ⟨a, b, h⟩
      cases a with
      | nil => exact .inl ⟨b, by simpa using h.symm⟩
      | cons x a =>
        right
        simp only [List.cons_append, List.cons.injEq] at h
        exact ⟨a, b, h.2⟩

theorem decodeExt_type {utf8 : Bytes → Bool} {t : ExtType} {b : Bytes} {x : PingExt.Ext}
    (h : PingExt.decodeExt utf8 t b = some x) : ∀ m, t ≠ .nonSupported m := by
  rintro m rfl
  simp [PingExt.decodeExt] at h

end Verif.JsonRpc
