import Verif.Props.OverlaySpec
import Verif.Props.Replies
import Verif.Props.Gossip
import Verif.Props.Routing
import Verif.Lemmas.Overlay
import Verif.Lemmas.OverlayMatch

/-! # C73: the calls a user makes on an overlay network

`askNode c s caller` is a request sent to the node `s` over the network, with all of the encoding and decoding
on both sides; `uTpWork` is what that node does over uTP afterwards. -/

set_option linter.unusedSectionVars false

namespace Verif.Props
open Verif.Wire Verif.Overlay Verif.OverlaySpec
open Verif.PingExt (Ext)

variable {E K : Type} [DecidableEq K] [DecidableEq E]

/-! ## Requests and replies -/

/-- A request is answered by what the handler of the other node makes of it, whatever node that is: encoding,
the empty body for a failure and the reading of the answer change nothing else. -/
theorem C73_rpc (c : EnrCodec E) (hc : EnrLawful c) (s : Server E K) (caller : Id) (r : Request)
    (hb : Buildable (E := E) r.toMessage) (hl : (encode c r.toMessage).length < 2 ^ 32) :
    (∀ x, askNode c s caller r = .ok x ↔ reply c s caller (arriving r) = .ok x) ∧
    ((∃ e, reply c s caller (arriving r) = .error e) → askNode c s caller r = .error .decode) := by
  rw [askNode_eq c hc s caller r hb hl]
  cases h : reply c s caller (arriving r) with
  | ok x => exact ⟨fun y => Iff.rfl, fun ⟨e, he⟩ => by cases he⟩
  | error e => exact ⟨fun y => ⟨(nomatch ·), (nomatch ·)⟩, fun _ => rfl⟩

/-- A body that is not a request is answered with an empty body and causes no transfer. -/
theorem C73_bad_request (c : EnrCodec E) (s : Server E K) (caller : Id) (body : Bytes)
    (h : ∀ m, decode c body = some m → Request.ofMessage m = none) :
    serve c (reply c s caller) body = [] ∧ work c s caller body = none := by
  unfold serve work processOne
  cases hm : decode c body with
  | none => exact ⟨rfl, rfl⟩
  | some m => simp only [h m hm]; exact ⟨trivial, trivial⟩

/-- Whatever the other side sends back, the caller gets a response only if the body is the encoding of that
very response, and an error otherwise. -/
theorem C73_response_exact (c : EnrCodec E) (talk : Bytes → Except ReqErr Bytes) (r : Request) (x : Response E) :
    sendTalk c talk r = .ok x ↔
      ∃ body, talk (encode c r.toMessage) = .ok body ∧ decode c body = some x.toMessage := by
  unfold sendTalk interpret
  cases talk (encode c r.toMessage) with
  | error e => simp
  | ok body =>
    simp only [Except.ok.injEq, exists_eq_left']
    cases hm : decode c body with
    | none => simp
    | some m =>
      simp only [Option.some.injEq]
      cases m <;> cases x <;> simp [Response.ofMessage, Response.toMessage]

/-! ## Ping -/

/-- What a ping is sent with: the payload given together with its type, or by default the node's own
capabilities or radius; otherwise nothing is sent and the call fails. -/
theorem C73_ping_sent (l : Ping.Local) (sup : List ExtType) (net : Request → Except ReqErr (Response E))
    (t : Option ExtType) (x : Option Ext) :
    (∀ r, (sendPing l sup net t x).sent = some r → ∃ y, r = .ping ⟨l.enrSeq, y.type, y.payload⟩ ∧
      (x = some y ∧ t = some y.type ∨
       x = none ∧ (t = none ∨ t = some y.type) ∧
        (y = .capabilities l.info l.radius (sup.take 400) ∧ (t = none ∨ t = some .capabilities) ∨
         y = .basicRadius l.radius ∧ t = some .basicRadius ∨
         y = .historyRadius l.radius 0 ∧ t = some .historyRadius))) ∧
    ((sendPing l sup net t x).sent = none → ∃ e, (sendPing l sup net t x).result = .error e) ∧
    ((sendPing l sup net t x).sent = none ↔
      (∃ y, x = some y ∧ t ≠ some y.type) ∨ (x = none ∧ (t = some .error ∨ ∃ n, t = some (.nonSupported n)))) := by
  cases x with
  | none =>
    cases t with
    | none => simp [sendPing, pingExt, defaultExt, Ping.createCapabilities, Ext.type]
    | some t =>
      cases t <;> simp [sendPing, pingExt, defaultExt, Ping.createCapabilities, Ext.type]
  | some y =>
    cases t with
    | none => simp [sendPing, pingExt]
    | some t =>
      by_cases h : t = y.type
      · subst h
        simp only [sendPing, pingExt, ne_eq, not_true_eq_false, if_false]
        refine ⟨?_, (nomatch ·), ?_⟩
        · intro r hr; cases hr; exact ⟨y, rfl, .inl ⟨rfl, rfl⟩⟩
        · simp
      · simp [sendPing, pingExt, h]

/-- A ping to a node is answered: its sequence number, and its radius if it supports the extension, otherwise
the error that says so. -/
theorem C73_ping (c : EnrCodec E) (hc : EnrLawful c) (s : Server E K) (caller : Id)
    (hs : ∀ n, ExtType.nonSupported n ∉ s.supported) (l : Ping.Local) (sup : List ExtType) (t : Option ExtType)
    (x : Option Ext) (p : PingBody) (hsent : (sendPing l sup (askNode c s caller) t x).sent = some (.ping p)) :
    ∃ pong e, (sendPing l sup (askNode c s caller) t x).result = .ok pong ∧ pong.enrSeq = s.pong.enrSeq ∧
      pong.payloadType = e.type ∧ pong.payload = e.payload ∧
      (p.payloadType ∉ s.supported → e = .error Ping.extensionNotSupported []) ∧
      (p.payloadType ∈ s.supported → p.payloadType ≠ .error →
        e.type = p.payloadType ∧ radiusOf e = some s.pong.radius) := by
  obtain ⟨y, hy, -⟩ := (C73_ping_sent l sup (askNode c s caller) t x).1 _ hsent
  cases hy
  have hb : Buildable (E := E) (Request.ping ⟨l.enrSeq, y.type, y.payload⟩).toMessage := by
    refine ⟨?_, ?_⟩
    · simp only [Ext.payload, customPayload, List.length_take]; omega
    · intro n hn; cases y <;> cases hn
  have hlen : (encode c (Request.ping ⟨l.enrSeq, y.type, y.payload⟩).toMessage).length < 2 ^ 32 := by
    have := C05_pong_fits c ⟨l.enrSeq, y.type, y.payload⟩ hb
    simp only [Request.toMessage, encode, List.length_cons] at this ⊢
    omega
  obtain ⟨q, e, hq, h1, h2, h3, h4, -, h6⟩ := C48_answer s.pong s.supported hs ⟨l.enrSeq, y.type, y.payload⟩
  have hr := ((C73_rpc c hc s caller _ hb hlen).1 (.pong q)).2
    (by simp [reply, arriving, handleRequest, hq, Except.map])
  refine ⟨q, e, ?_, h1, h2, h3, h4, h6⟩
  unfold sendPing at hsent ⊢
  cases hp : pingExt l sup t x with
  | error e => rw [hp] at hsent; cases hsent
  | ok z =>
    rw [hp] at hsent
    simp only at hsent ⊢
    rw [show Request.ping ⟨l.enrSeq, z.type, z.payload⟩ = Request.ping ⟨l.enrSeq, y.type, y.payload⟩ from
      Option.some.inj hsent, hr]

/-- Although the default refuses it, a ping with an error payload is sent if the user gives it. -/
theorem C73_ping_error_violated (l : Ping.Local) (sup : List ExtType) (net : Request → Except ReqErr (Response E)) :
    (sendPing l sup net (some .error) none).sent = none ∧
    (sendPing l sup net (some .error) (some (.error 1 []))).sent =
      some (.ping ⟨l.enrSeq, .error, (Ext.error 1 []).payload⟩) := ⟨rfl, rfl⟩

/-! ## Nodes -/

private theorem encodeU16s_length (ds : List UInt16) : (encodeU16s ds).length = 2 * ds.length := by
  unfold encodeU16s Ssz.encodeFixedList
  induction ds with
  | nil => rfl
  | cons d ds ih => simp_all [Nat.mul_add]; omega

/-- Asking a node for the nodes at some distances: the distances are checked before anything is sent; the answer
is one message with at most 32 records, among them no record of the caller, each the node's own record, if
distance 0 was asked for, or the record of a connected peer of it at one of the distances. -/
theorem C73_find_nodes (c : EnrCodec E) (hc : EnrLawful c) (s : Server E K) (caller : Id) (ds : List UInt16) :
    (¬ Askable ds → (sendFindNodes (askNode c s caller) ds).sent = none ∧
      (sendFindNodes (askNode c s caller) ds).result = .error .invalidRequest) ∧
    (Askable ds → (sendFindNodes (askNode c s caller) ds).sent = some (.findNodes ds) ∧
      ∃ es, (sendFindNodes (askNode c s caller) ds).result = .ok (1, es) ∧ es.length ≤ 32 ∧
        (∀ e ∈ es, s.nodeId e ≠ caller ∧
          ((e = s.enr ∧ 0 ∈ ds) ∨ ∃ entry ∈ s.table, entry.enr = e ∧ entry.connected = true ∧
            ∃ d ∈ ds, AtLogDistance (s.nodeId s.enr) (s.nodeId e) d.toNat)) ∧
        (0 ∈ ds → s.nodeId s.enr ≠ caller → 4 + (c.enc s.enr).length ≤ 1165 → es.head? = some s.enr)) := by
  unfold sendFindNodes
  refine ⟨fun h => ?_, fun h => ?_⟩
  · rw [if_neg (fun h' => h ((validDistances_iff ds).1 h'))]; exact ⟨rfl, rfl⟩
  · rw [if_pos ((validDistances_iff ds).2 h)]
    have hl : (encode c (Request.toMessage (E := E) (.findNodes ds))).length < 2 ^ 32 := by
      have h2 := h.2.1
      have h3 := encodeU16s_length ds
      simp [Request.toMessage, encode, encodeWrapped, Ssz.encodeContainer, Ssz.fixedPart, Ssz.varPart, h3]
      omega
    have hr := ((C73_rpc c hc s caller (.findNodes ds) trivial hl).1 _).2 (rfl : reply c s caller _ = .ok
      (.nodes 1 (KBucket.handleFindNodes c s.nodeId s.enr s.table caller ds)))
    refine ⟨rfl, KBucket.handleFindNodes c s.nodeId s.enr s.table caller ds, ?_, ?_⟩
    · simp only [hr]
    · obtain ⟨h1, h2⟩ := C16_find_nodes_sound c s.nodeId s.enr s.table caller ds
      exact ⟨h1, h2, fun h0 h1 h2 => C16_find_nodes_local c s.nodeId s.enr s.table caller ds h0 h1 h2⟩

/-! ## Content -/

/-- Whoever answers, what the user gets for a key is content that is valid for it, or the records the peer
sent; a connection id is never returned. Content that came over uTP is what the stream of the connection id in
the answer carried, without its frame if the peer is of version 1. -/
theorem C73_find_content_checked (version : Except Versions.Err Versions.Version) (decodeKey : Bytes → Option K)
    (valid : K → Bytes → Bool) (net : Request → Except ReqErr (Response E))
    (stream : ConnId → Except ReqErr Bytes) (key : Bytes) (x : Content E) (utp : Bool)
    (h : (sendFindContent version decodeKey valid net stream key).result = .ok (x, utp)) :
    ∃ k v, decodeKey key = some k ∧ version = .ok v ∧
      match x with
      | .content value => valid k value = true ∧
        (utp = false → net (.findContent key) = .ok (.content (.content value))) ∧
        (utp = true → ∃ id bytes, net (.findContent key) = .ok (.content (.connectionId id)) ∧
          stream ⟨Offer.swap16 id, Offer.swap16 id + 1⟩ = .ok bytes ∧
          (if v.isV1Enabled then Payload.decode bytes = .ok [value] else bytes = value))
      | .enrs es => net (.findContent key) = .ok (.content (.enrs es)) ∧ utp = false
      | .connectionId _ => False := by
  unfold sendFindContent at h
  cases version with
  | error e => cases h
  | ok v =>
    simp only at h
    cases hk : decodeKey key with
    | none => rw [hk] at h; cases h
    | some k =>
      rw [hk] at h
      simp only at h
      refine ⟨k, v, rfl, rfl, ?_⟩
      have chk : ∀ {value : Bytes} {u : Bool}, checked (E := E) valid k value u = .ok (x, utp) →
          x = .content value ∧ utp = u ∧ valid k value = true := by
        intro value u hc
        unfold checked at hc
        split at hc
        · next hv => cases hc; exact ⟨rfl, rfl, hv⟩
        · cases hc
      unfold foundContent at h
      split at h
      · next value hn =>
        obtain ⟨rfl, rfl, hv⟩ := chk h
        exact ⟨hv, fun _ => hn, (nomatch ·)⟩
      · next es hn => cases h; exact ⟨hn, rfl⟩
      · next id hn =>
        split at h
        · cases h
        · next bytes hs =>
          unfold unframe at h
          cases h1 : v.isV1Enabled with
          | false =>
            simp only [h1, Bool.false_eq_true, if_false] at h
            obtain ⟨rfl, rfl, hv⟩ := chk h
            exact ⟨hv, (nomatch ·), fun _ => ⟨id, bytes, hn, hs, by simp⟩⟩
          | true =>
            simp only [h1, if_true] at h
            cases hd : Payload.decodeSingle bytes with
            | error e => rw [hd] at h; cases h
            | ok value =>
              rw [hd] at h
              obtain ⟨rfl, rfl, hv⟩ := chk h
              exact ⟨hv, (nomatch ·), fun _ => ⟨id, bytes, hn, hs, by
                simpa using (C02_single_iff bytes value).1 hd⟩⟩
      · cases h
      · cases h

private theorem findContent_length (c : EnrCodec E) (key : Bytes) (h : key.length < 2 ^ 31) :
    (encode c (Request.toMessage (E := E) (.findContent key))).length < 2 ^ 32 := by
  simp [Request.toMessage, encode, encodeWrapped, Ssz.encodeContainer, Ssz.fixedPart, Ssz.varPart]
  omega

private theorem reply_of {c : EnrCodec E} {s : Server E K} {caller : Id} {r : Request} {x : Response E}
    {j : Option (Job K)} (h : handleRequest c s caller r = .ok (x, j)) : reply c s caller r = .ok x := by
  unfold reply; rw [h]; rfl

private theorem stored_answer (c : EnrCodec E) (s : Server E K) (caller : Id) (key : Bytes) (k : K) (value : Bytes)
    (v : Versions.Version) (hks : s.decodeKey key = some k) (hst : s.store k = .ok (some value))
    (hslot : s.outSlot = true)
    (hfr : value.length ≤ 1165 ∨ (SameFraming s v ∧ value.length < 2 ^ 32)) :
    (value.length ≤ 1165 ∧ handleRequest c s caller (.findContent key) = .ok (.content (.content value), none)) ∨
    (1165 < value.length ∧ ∃ data, handleRequest c s caller (.findContent key) =
        .ok (.content (.connectionId (Offer.swap16 s.cid.send)), some (.write s.cid data)) ∧
      unframe v.isV1Enabled data = .ok value) := by
  unfold handleRequest
  simp only [hks, hst, hslot, Option.map_some, KBucket.handleFindContent]
  by_cases hl : value.length ≤ KBucket.maxContentPayload
  · left
    refine ⟨hl, ?_⟩
    rw [if_pos hl]
    rfl
  · right
    have hl' : 1165 < value.length := by
      have : KBucket.maxContentPayload = 1165 := by decide
      omega
    rcases hfr with h | ⟨⟨e, v', ha, hv', hf⟩, hlen⟩
    · omega
    refine ⟨hl', ?_⟩
    rw [if_neg hl, ha]
    simp only [Option.map_some, hv']
    cases h1 : v'.isV1Enabled with
    | false =>
      refine ⟨value, rfl, ?_⟩
      rw [← hf, h1]
      rfl
    | true =>
      obtain ⟨payload, hp⟩ := (C02_encode_ok_iff [value]).2 (by simpa using hlen)
      refine ⟨payload, ?_, ?_⟩
      · rw [hp]; rfl
      · rw [← hf, h1]
        unfold unframe
        rw [if_pos rfl, (C02_single_iff payload value).2 (C02_roundtrip _ _ hp)]

/-- Content that a node has arrives, of whatever size, and is returned if it is valid: in the reply if it fits
there, otherwise over uTP, for which both sides must have settled on the same framing. -/
theorem C73_find_content_served (c : EnrCodec E) (hc : EnrLawful c) (s : Server E K) (caller : Id)
    (v : Versions.Version) (decodeKey : Bytes → Option K) (valid : K → Bytes → Bool) (key : Bytes) (k : K)
    (value : Bytes) (hlen : key.length < 2 ^ 31) (hka : decodeKey key = some k) (hks : s.decodeKey key = some k)
    (hst : s.store k = .ok (some value)) (hslot : s.outSlot = true)
    (hfr : value.length ≤ 1165 ∨ (SameFraming s v ∧ value.length < 2 ^ 32)) :
    (sendFindContent (.ok v) decodeKey valid (askNode c s caller)
        (connectRead (uTpWork c s caller (.findContent key))) key).result =
      if valid k value then .ok (.content value, decide (1165 < value.length)) else .error .failedValidation := by
  unfold sendFindContent
  simp only [hka]
  have hl := findContent_length c key hlen
  rw [uTpWork_eq c hc s caller (.findContent key) trivial hl,
    show arriving (.findContent key) = .findContent key from rfl]
  have ask : ∀ x j, handleRequest c s caller (.findContent key) = .ok (x, j) →
      askNode c s caller (.findContent key) = .ok x := fun x j h =>
    ((C73_rpc c hc s caller (.findContent key) trivial hl).1 x).2 (reply_of h)
  rcases stored_answer c s caller key k value v hks hst hslot hfr with ⟨h1, h2⟩ | ⟨h1, data, h2, h3⟩
  · rw [ask _ _ h2]
    simp only [foundContent, checked, decide_eq_false (Nat.not_lt.2 h1)]
  · rw [ask _ _ h2, h2]
    simp only [foundContent, Offer.swap16_swap16, connectRead]
    have hm : meets s.cid (readerCid s.cid.send) = true := by
      simp [meets, readerCid, Server.cid, drawCid]
    rw [if_pos hm]
    simp only [h3, checked, decide_eq_true h1]

/-- If the node does not have the content, or no transfer slot for it, the user gets records of nodes: at most 32,
none of the caller, all of connected peers of the node, the closest to the content first, and none left out that
is closer than one of them; none at all if the radius does not matter for the content. -/
theorem C73_find_content_absent (c : EnrCodec E) (hc : EnrLawful c) (s : Server E K) (caller : Id)
    (v : Versions.Version) (decodeKey : Bytes → Option K) (valid : K → Bytes → Bool)
    (stream : ConnId → Except ReqErr Bytes) (key : Bytes) (k : K) (found : Option Bytes)
    (hlen : key.length < 2 ^ 31) (hka : decodeKey key = some k) (hks : s.decodeKey key = some k)
    (hst : s.store k = .ok found) (hno : found = none ∨ s.outSlot = false) :
    ∃ es, (sendFindContent (.ok v) decodeKey valid (askNode c s caller) stream key).result = .ok (.enrs es, false) ∧
      es.length ≤ 32 ∧
      (∀ e ∈ es, s.nodeId e ≠ caller ∧ ∃ entry ∈ s.table, entry.enr = e ∧ entry.connected = true) ∧
      es.Pairwise (fun a b => (s.contentId k ^^^ s.nodeId a).toNat ≤ (s.contentId k ^^^ s.nodeId b).toNat) ∧
      (s.affected k = false → es = []) ∧
      (s.affected k = true → ∀ entry ∈ s.table, entry.connected = true → s.nodeId entry.enr ≠ caller →
        entry.enr ∉ es → ∀ e ∈ es,
          (s.contentId k ^^^ s.nodeId e).toNat ≤ (s.contentId k ^^^ s.nodeId entry.enr).toNat) := by
  have hl := findContent_length c key hlen
  let es := KBucket.contentEnrs c s.nodeId s.table caller (s.affected k) (s.contentId k)
  have hh : handleRequest c s caller (.findContent key) = .ok (.content (.enrs es), none) := by
    unfold handleRequest
    simp only [hks, hst, Option.map_some, KBucket.handleFindContent]
    rcases hno with rfl | hs
    · rfl
    · rw [hs]; cases found <;> rfl
  refine ⟨es, ?_, ?_⟩
  · unfold sendFindContent
    simp only [hka]
    rw [((C73_rpc c hc s caller (.findContent key) trivial hl).1 _).2 (reply_of hh)]
    rfl
  · cases ha : s.affected k with
    | false =>
      have : es = [] := by
        show KBucket.contentEnrs c s.nodeId s.table caller (s.affected k) (s.contentId k) = []
        rw [ha]; exact C16_find_content_no_radius c s.nodeId s.table caller _
      rw [this]
      simp
    | true =>
      obtain ⟨h1, h2, h3, h4⟩ := C16_find_content_closest c s.nodeId s.table caller (s.contentId k) es
        (by show KBucket.contentEnrs c s.nodeId s.table caller (s.affected k) (s.contentId k) = _; rw [ha])
      exact ⟨h1, h2, h3, (nomatch ·), fun _ => h4⟩

/-! ## Offers -/

theorem offer_read {s : Server E K} {keys : List Bytes} {a : Offer.Answer K} {v : Versions.Version}
    (hans : Answerable s.host keys v) (ha : (Offer.handleOffer s.host s.queue keys).2 = .ok a) :
    a.codes.length = keys.length ∧ ∃ codes, acceptDecode v.isV1Enabled a.contentKeys = some codes ∧
      codes.length = keys.length ∧ (∀ i : Nat, codes[i]? = some .accepted ↔ a.codes[i]? = some .accepted) ∧
      (v.isV1Enabled = true → codes = a.codes) := by
  obtain ⟨h1, h2, v', enr, he, hv, hk⟩ := offer_codes_length ha
  obtain ⟨-, enr', he', hv'⟩ := hans
  rw [he] at he'; cases he'
  rw [hv] at hv'; cases hv'
  refine ⟨h2, ?_⟩
  rw [hk]
  cases hb : v.isV1Enabled with
  | true =>
    exact ⟨a.codes, C03_v1_roundtrip _ (by omega), h2, fun _ => Iff.rfl, fun _ => rfl⟩
  | false =>
    obtain ⟨out, o1, o2, o3⟩ := C03_v0_positions a.codes (by omega)
    exact ⟨out, o1, by omega, o3, (nomatch ·)⟩

theorem offer_asked (c : EnrCodec E) (hc : EnrLawful c) (s : Server E K) (caller : Id) (r : Request)
    (items : List (Bytes × Bytes)) (hr : r = .populatedOffer items ∨ r = .populatedOfferWithResult items)
    (a : Offer.Answer K) (ha : (Offer.handleOffer s.host s.queue (items.map (·.1))).2 = .ok a)
    (hl : (encode c (Message.offer (E := E) (items.map (·.1)))).length < 2 ^ 32) :
    askNode c s caller r = .ok (.accept a.connectionId a.contentKeys) ∧
    uTpWork c s caller r = a.task.map (Job.read s.cid) := by
  have hm : arriving r = .offer (items.map (·.1)) := by rcases hr with rfl | rfl <;> rfl
  have ht : Request.toMessage (E := E) r = .offer (items.map (·.1)) := by rcases hr with rfl | rfl <;> rfl
  have hb : Buildable (E := E) r.toMessage := by rw [ht]; trivial
  have hl' : (encode c (r.toMessage (E := E))).length < 2 ^ 32 := by rw [ht]; exact hl
  have hh : handleRequest c s caller (.offer (items.map (·.1))) =
      .ok (.accept a.connectionId a.contentKeys, a.task.map (Job.read s.cid)) := by
    simp only [handleRequest, ha]
  refine ⟨((C73_rpc c hc s caller r hb hl').1 _).2 (by rw [hm]; exact reply_of hh), ?_⟩
  rw [uTpWork_eq c hc s caller r hb hl', hm, hh]

/-- Offering content to a node that can answer gives one verdict per item, in the order of the items: an item is
accepted only if the node has a slot, knows the key and wants the content. With version 1 on both sides the
verdict also says why an item is declined. -/
theorem C73_offer (c : EnrCodec E) (hc : EnrLawful c) (s : Server E K) (caller : Id) (v : Versions.Version)
    (items : List (Bytes × Bytes)) (hl : (encode c (Message.offer (E := E) (items.map (·.1)))).length < 2 ^ 32)
    (hans : Answerable s.host (items.map (·.1)) v)
    (hkeys : ∀ raw ∈ items.map (·.1), ∃ k, s.decodeKey raw = some k ∧ s.wants k ≠ none) :
    ∃ codes, (sendOffer (.ok v) (askNode c s caller) items).result = .ok codes ∧ codes.length = items.length ∧
      (s.inSlot = false → ∀ c ∈ codes, c ≠ .accepted ∧ (v.isV1Enabled = true → c = .rateLimited)) ∧
      (s.inSlot = true → ∀ (i : Nat) (item : Bytes × Bytes), items[i]? = some item →
        ∃ k d code, s.decodeKey item.1 = some k ∧ s.wants k = some d ∧ codes[i]? = some code ∧
          (code = .accepted → d = .store) ∧
          (v.isV1Enabled = true → match d with
            | .notWithinRadius => code = .notWithinRadius
            | .alreadyStored => code = .alreadyStored
            | .store => code = .accepted ∨ code = .inboundTransferInProgress)) := by
  obtain ⟨r1, r2, r3, r4, r5, -⟩ := C14_refused s.host s.queue (items.map (·.1))
  have hok : ∃ a, (Offer.handleOffer s.host s.queue (items.map (·.1))).2 = .ok a := by
    obtain ⟨hn, enr, he, hv⟩ := hans
    cases hr : (Offer.handleOffer s.host s.queue (items.map (·.1))).2 with
    | ok a => exact ⟨a, rfl⟩
    | error e =>
      exfalso
      cases e with
      | tooManyKeys => exact absurd (r1.1 hr) (by omega)
      | unknownPeer => rw [(r2.1 hr).2] at he; cases he
      | noCommonVersion =>
        obtain ⟨-, enr', e', h1, h2⟩ := r3.1 hr
        rw [he] at h1; cases h1
        rw [hv] at h2; cases h2
      | badKey =>
        obtain ⟨-, -, raw, hraw, hd⟩ := r4.1 hr
        obtain ⟨k, hk, -⟩ := hkeys raw hraw
        have : s.decodeKey raw = none := hd
        rw [this] at hk; cases hk
      | storage =>
        obtain ⟨-, -, -, raw, hraw, k, hd, hw⟩ := r5.1 hr
        obtain ⟨k', hk, hw'⟩ := hkeys raw hraw
        have : s.decodeKey raw = some k := hd
        rw [this] at hk; cases hk
        exact hw' hw
  obtain ⟨a, ha⟩ := hok
  obtain ⟨hal, codes, hdec, hcl, hpos, hv1⟩ := offer_read hans ha
  obtain ⟨hask, -⟩ := offer_asked c hc s caller (.populatedOffer items) items (.inl rfl) a ha hl
  refine ⟨codes, ?_, by simpa using hcl, ?_, ?_⟩
  · unfold sendOffer
    simp only [hask, hdec]
  · intro hs code hcode
    obtain ⟨a', h1, -, -, h4, -⟩ := C14_no_slot s.host s.queue _ v hans hs
    rw [h1] at ha
    cases ha
    obtain ⟨i, hi⟩ := List.getElem?_of_mem hcode
    constructor
    · intro he
      subst he
      have := (hpos i).1 hi
      rw [h4, List.getElem?_replicate] at this
      split at this <;> cases this
    · intro hv
      rw [hv1 hv, h4] at hcode
      exact List.eq_of_mem_replicate hcode
  · intro hs i item hi
    obtain ⟨-, hver⟩ := C14_verdicts s.host s.queue _ a hs ha
    obtain ⟨k, d, code, h1, h2, h3, h4⟩ := hver i item.1 (by rw [List.getElem?_map, hi]; rfl)
    have hil : i < codes.length := by
      have := (List.getElem?_eq_some_iff.1 hi).1
      simp at hcl; omega
    refine ⟨k, d, codes[i], h1, h2, List.getElem?_eq_getElem hil, ?_, ?_⟩
    · intro he
      have hc' := (hpos i).1 (by rw [List.getElem?_eq_getElem hil, he])
      rw [h3] at hc'
      cases hc'
      cases d <;> simp at h4
      rfl
    · intro hv
      have hcc : codes[i] = code := by
        have : codes[i]? = a.codes[i]? := by rw [hv1 hv]
        rw [List.getElem?_eq_getElem hil, h3] at this
        exact Option.some.inj this
      rw [hcc]
      exact h4

/-- The answer of an offer is not compared with the offer: a peer may accept more items than it was offered, and
the user gets that verdict. -/
theorem C73_offer_length_violated :
    ∃ (net : Request → Except ReqErr (Response E)) (items : List (Bytes × Bytes)) (codes : List AcceptCode),
      (sendOffer (.ok .v1) net items).result = .ok codes ∧ items.length = 1 ∧
      codes = [.declined, .accepted, .accepted] :=
  ⟨fun _ => .ok (.accept 0 [1, 0, 0]), [([1], [2])], _, rfl, rfl, rfl⟩

/-- An offer with a trace to a node that answers. If it accepts nothing, the verdicts are the result. Otherwise a
payload goes to a connection id that meets the one on which the node waits, the node pairs what it reads with the
keys it accepted, and gets for each accepted item the value that was offered for it; the result is the verdicts
if the transfer succeeds and a failure if it does not. -/
theorem C73_offer_traced (c : EnrCodec E) (hc : EnrLawful c) (s : Server E K) (caller : Id) (v : Versions.Version)
    (transfer : ConnId → Bytes → Bool) (items : List (Bytes × Bytes))
    (hl : (encode c (Message.offer (E := E) (items.map (·.1)))).length < 2 ^ 32)
    (hans : Answerable s.host (items.map (·.1)) v) (hval : ∀ item ∈ items, item.2.length < 2 ^ 32)
    (codes : List AcceptCode) (hcodes : (sendOffer (.ok v) (askNode c s caller) items).result = .ok codes) :
    let call := sendOfferTraceMany (.ok v) (askNode c s caller) transfer items
    let job := uTpWork c s caller (.populatedOfferWithResult items)
    codes.length = items.length ∧
    ((∀ c ∈ codes, c ≠ .accepted) → call.result = .ok (.success codes) ∧ job = none) ∧
    ((∃ c ∈ codes, c = .accepted) → ∃ ks cid payload, (items.map (·.1)).map s.decodeKey = ks.map some ∧
      job = some (.read s.cid (selected codes ks)) ∧ meets s.cid cid = true ∧
      Offer.decodePayload (selected codes ks) payload = some (selected codes (ks.zip (items.map (·.2)))) ∧
      call.result = .ok (if transfer cid payload then .success codes else .failed)) := by
  cases hr : (Offer.handleOffer s.host s.queue (items.map (·.1))).2 with
  | error e =>
    exfalso
    have hb : Buildable (E := E) (Request.populatedOffer items).toMessage := trivial
    have := (C73_rpc c hc s caller (.populatedOffer items) hb hl).2
      ⟨.accept, by simp [reply, arriving, handleRequest, hr, Except.map]⟩
    unfold sendOffer at hcodes
    rw [this] at hcodes
    cases hcodes
  | ok a =>
    obtain ⟨hal, codes', hdec, hcl, hpos, hv1⟩ := offer_read hans hr
    obtain ⟨hask, -⟩ := offer_asked c hc s caller (.populatedOffer items) items (.inl rfl) a hr hl
    obtain ⟨hask', hwork⟩ := offer_asked c hc s caller (.populatedOfferWithResult items) items (.inr rfl) a hr hl
    have hcc : codes' = codes := by
      unfold sendOffer at hcodes
      simp only [hask, hdec] at hcodes
      exact Except.ok.inj hcodes
    subst hcc
    have hsel : ∀ {α : Type} (xs : List α), selected a.codes xs = selected codes' xs := by
      intro α xs
      have : a.codes.length = codes'.length := by omega
      clear hdec hcodes hv1
      have hpos' := hpos
      generalize a.codes = as at hpos' this
      generalize codes' = bs at hpos' this
      clear hpos
      induction as generalizing bs xs with
      | nil => cases bs with
        | nil => rfl
        | cons b bs => simp at this
      | cons x as ih =>
        cases bs with
        | nil => simp at this
        | cons b bs =>
          cases xs with
          | nil => rfl
          | cons y ys =>
            have h0 := hpos' 0
            simp only [List.getElem?_cons_zero, Option.some.injEq] at h0
            have hi := ih ys bs (fun i => by simpa using hpos' (i + 1)) (by simpa using this)
            unfold selected
            by_cases hx : x = .accepted
            · rw [if_pos hx, if_pos (h0.2 hx), hi]
            · rw [if_neg hx, if_neg (fun h => hx (h0.1 h)), hi]
    obtain ⟨c1, c2, c3⟩ := C14_connection s.host s.queue _ a v hans hr
    have hacc : (∃ c ∈ codes', c = .accepted) ↔ ∃ c ∈ a.codes, c = .accepted := by
      simp only [exists_eq_right, List.mem_iff_getElem?]
      exact ⟨fun ⟨i, h⟩ => ⟨i, (hpos i).1 h⟩, fun ⟨i, h⟩ => ⟨i, (hpos i).2 h⟩⟩
    refine ⟨by simpa using hcl, fun hnone => ?_, fun hsome => ?_⟩
    · have hn : ∀ c ∈ a.codes, c ≠ .accepted := fun c hc' he => by
        obtain ⟨c'', h1, h2⟩ := hacc.2 ⟨c, hc', he⟩
        exact hnone c'' h1 h2
      refine ⟨?_, by rw [hwork, (c1 hn).2]; rfl⟩
      unfold sendOfferTraceMany
      simp only [hask', Offer.processAccept, hdec, (C03_all_declined codes').2 hnone, if_true, traceOf]
    · have hd : allDeclined codes' = false := by
        cases hd : allDeclined codes' with
        | false => rfl
        | true =>
          obtain ⟨c', h1, h2⟩ := hsome
          exact absurd h2 ((C03_all_declined codes').1 hd c' h1)
      let vals := ((codes'.zip items).filter (fun x => x.1 == .accepted)).map (fun x => x.2.2)
      obtain ⟨payload, hp⟩ := (C02_encode_ok_iff vals).2 (by
        intro x hx
        obtain ⟨y, hy, rfl⟩ := List.mem_map.1 hx
        exact hval y.2 (List.of_mem_zip (List.mem_filter.1 hy).1).2)
      have hsent : Offer.processAccept (K := K) (.ok v) (fun _ => none) (fun _ => none) a.connectionId a.contentKeys
          (.populated items) = .transmit (Offer.swap16 a.connectionId) (Offer.swap16 a.connectionId + 1) payload
            codes' := by
        simp only [Offer.processAccept, hdec, hd, Offer.contentItems, Bool.false_eq_true, if_false]
        rw [show Payload.encode (((codes'.zip items).filter (fun x => x.1 == .accepted)).map (fun x => x.2.2)) = .ok payload
          from hp]
      obtain ⟨e1, -, ks, e3, e4, e5⟩ := C15_end_to_end s.host s.queue items a v (fun _ => none) (fun _ => none) hans hr
        _ _ payload codes' hsent
      rw [hsel, hsel] at e5
      rw [hsel] at e4
      refine ⟨ks, ⟨s.cid.send, s.cid.send + 1⟩, payload, e3, by rw [hwork, e4]; rfl, ?_, e5, ?_⟩
      · simp [meets, Server.cid, drawCid]
      · have e1' : Offer.swap16 a.connectionId = s.cid.send := e1
        unfold sendOfferTraceMany
        simp only [hask']
        simp only [Offer.processAccept, hdec, hd, Offer.contentItems, Bool.false_eq_true, if_false]
        rw [show Payload.encode (((codes'.zip items).filter (fun x => x.1 == .accepted)).map (fun x => x.2.2)) = .ok payload
          from hp]
        simp only [traceOf, e1']
        cases transfer ⟨s.cid.send, s.cid.send + 1⟩ payload <;> rfl

/-- The trace of one item is one verdict. -/
theorem C73_offer_trace_one (version : Except Versions.Err Versions.Version)
    (net : Request → Except ReqErr (Response E)) (transfer : ConnId → Bytes → Bool) (key value : Bytes)
    (x : Trace AcceptCode) :
    (sendOfferTrace version net transfer key value).result = .ok x ↔
      match x with
      | .success code => (sendOfferTraceMany version net transfer [(key, value)]).result = .ok (.success [code])
      | .failed => (sendOfferTraceMany version net transfer [(key, value)]).result = .ok .failed := by
  unfold sendOfferTrace
  simp only
  generalize (sendOfferTraceMany version net transfer [(key, value)]).result = r
  cases r with
  | error e => cases x <;> simp
  | ok t =>
    cases t with
    | failed => cases x <;> simp
    | success codes =>
      cases x with
      | failed => rcases codes with _ | ⟨c, _ | ⟨d, l⟩⟩ <;> simp
      | success code => rcases codes with _ | ⟨c, _ | ⟨d, l⟩⟩ <;> simp

/-! ## Records of nodes -/

/-- The record of a node is the node's own record for its own id, or the one of the entry in the table; there is
none for a node that is not in the table or only waits for a place in it. -/
theorem C73_get_enr (lib : Routing.Lib E) (env : Ping.Env E) (own : E) (hl : Routing.Lawful env (env.nodeId own) lib)
    (t : Routing.Table E) (ht : ∀ k e, t k = some e → env.nodeId e.node.enr = k) (k : Id) (enr : E)
    (h : tableGet lib env.nodeId own t k = .ok enr) :
    env.nodeId enr = k ∧ (enr = own ∨ ∃ e, t k = some e ∧ e.node.enr = enr) := by
  unfold tableGet getEnr at h
  split at h
  · next hk => cases h; exact ⟨hk.symm, .inl rfl⟩
  · split at h
    · next e he =>
      split at h
      · cases h
      · cases h
        have hd := hl.settle t k k
        rw [he] at hd
        cases hx : t k with
        | none => rw [hx] at hd; cases hd
        | some e' =>
          have hee : e'.node = e.node := by
            rw [hx] at hd; cases hd <;> rfl
          exact ⟨by rw [← hee]; exact ht k e' hx, .inr ⟨e', rfl, by rw [hee]⟩⟩
    · cases h

/-- Adding a record: if the call succeeds, the table has it, as connected and with the radius not yet known, or it
waits for a place; other nodes are not touched except as by any access of the table. If it fails, there is
nothing of the record in the table that was not there before. The own record is refused. -/
theorem C73_add_enr (lib : Routing.Lib E) (env : Ping.Env E) (localId : Id) (hl : Routing.Lawful env localId lib)
    (t : Routing.Table E) (enr : E) :
    ((addEnr lib t enr).1 = .ok () → ∃ e, (addEnr lib t enr).2 (env.nodeId enr) = some e ∧ e.node.enr = enr ∧
      e.status.connected = true ∧ e.node.radius = 2 ^ 256 - 1) ∧
    ((addEnr lib t enr).1 ≠ .ok () → (addEnr lib t enr).2 (env.nodeId enr) = none ∨
      (addEnr lib t enr).2 (env.nodeId enr) = t (env.nodeId enr)) ∧
    (∀ k, k ≠ env.nodeId enr → Routing.Drift (t k) ((addEnr lib t enr).2 k)) ∧
    (env.nodeId enr = localId → (addEnr lib t enr).1 ≠ .ok ()) := by
  have h1 := hl.insertHere t (Routing.newNode enr) ⟨true, true⟩
  have h2 := hl.insertOthers t (Routing.newNode enr) ⟨true, true⟩
  have h3 := hl.insertSelf t (Routing.newNode enr) ⟨true, true⟩
  have hn : (Routing.newNode enr).enr = enr := rfl
  rw [hn] at h1 h2 h3
  cases hres : lib.insert t (Routing.newNode enr) ⟨true, true⟩ with
  | mk r t' =>
  rw [hres] at h1 h2 h3
  simp only at h1 h2 h3
  have present : ∀ {p : Bool}, t' (env.nodeId enr) = some ⟨Routing.newNode enr, ⟨true, true⟩, p⟩ →
      ∃ e, t' (env.nodeId enr) = some e ∧ e.node.enr = enr ∧ e.status.connected = true ∧
        e.node.radius = 2 ^ 256 - 1 := fun h => ⟨_, h, rfl, rfl, rfl⟩
  have hok : r ≠ .failed → addEnr lib t enr = (.ok (), t') := by
    intro hr
    unfold addEnr
    rw [hres]
    cases r <;> first | rfl | exact absurd rfl hr
  have hfail : r = .failed → addEnr lib t enr = (.error .failure, t') := by
    rintro rfl
    unfold addEnr
    rw [hres]
  have key : r = .failed ∧ (t' (env.nodeId enr) = none ∨ t' (env.nodeId enr) = t (env.nodeId enr)) ∨
      r ≠ .failed ∧ ∃ p, t' (env.nodeId enr) = some ⟨Routing.newNode enr, ⟨true, true⟩, p⟩ := by
    generalize t' (env.nodeId enr) = x at h1
    generalize t (env.nodeId enr) = y at h1
    cases h1 with
    | removed => exact .inl ⟨rfl, .inl rfl⟩
    | refused => exact .inl ⟨rfl, .inr rfl⟩
    | _ => exact .inr ⟨by simp, _, rfl⟩
  rcases key with ⟨hr, h⟩ | ⟨hr, p, hx⟩
  · rw [hfail hr]
    exact ⟨(nomatch ·), fun _ => h, h2, fun _ => by simp⟩
  · rw [hok hr]
    exact ⟨fun _ => present hx, fun h => absurd rfl h, h2, fun h => absurd (h3 h) hr⟩

/-- A record that was added is found again, unless it only waits for a place. -/
theorem C73_add_get (lib : Routing.Lib E) (env : Ping.Env E) (own : E) (hl : Routing.Lawful env (env.nodeId own) lib)
    (t : Routing.Table E) (enr : E) (hadd : (addEnr lib t enr).1 = .ok ())
    (hp : ∀ e, (addEnr lib t enr).2 (env.nodeId enr) = some e → e.pending = false) :
    tableGet lib env.nodeId own (addEnr lib t enr).2 (env.nodeId enr) = .ok enr := by
  obtain ⟨h1, -, -, h4⟩ := C73_add_enr lib env (env.nodeId own) hl t enr
  obtain ⟨e, he, hn, hc, -⟩ := h1 hadd
  have hne : env.nodeId enr ≠ env.nodeId own := fun h => h4 h hadd
  unfold tableGet getEnr
  rw [if_neg hne]
  have hd := hl.settle (addEnr lib t enr).2 (env.nodeId enr) (env.nodeId enr)
  rw [he] at hd
  have hpe := hp e he
  generalize lib.settle (addEnr lib t enr).2 (env.nodeId enr) (env.nodeId enr) = x at hd
  cases hd with
  | same => simp [hpe, hn]
  | left _ h' => rw [hc, hpe] at h'; simp at h'
  | applied => simp [hn]

/-- A record that was deleted is not found again, unless it only waited for a place. -/
theorem C73_delete_get (lib : Routing.Lib E) (env : Ping.Env E) (own : E)
    (hl : Routing.Lawful env (env.nodeId own) lib) (t : Routing.Table E) (k : Id) (hk : k ≠ env.nodeId own)
    (hp : ∀ e, t k = some e → e.pending = false) :
    tableGet lib env.nodeId own (lib.remove t k) k = .error .failure := by
  have h1 : lib.remove t k k = none := by
    rcases hl.removeHere t k with h | ⟨e, h1, h2, -⟩
    · exact h
    · rw [hp e h1] at h2; cases h2
  have hd := hl.settle (lib.remove t k) k k
  rw [h1] at hd
  unfold tableGet getEnr
  rw [if_neg hk]
  generalize lib.settle (lib.remove t k) k k = x at hd
  cases hd
  rfl

/-- A node lookup: the own record for the own id, the record known for a node that is connected, and
the result of a query for every other one, also for one in the table that is not connected. -/
theorem C73_lookup_node (nodeId : E → Id) (own : E) (entry : Option (Routing.Entry E)) (known : Option E)
    (query : List E) (k : Id) :
    (k = nodeId own → lookupNode nodeId own entry known query k = [own]) ∧
    (k ≠ nodeId own → (∃ e, entry = some e ∧ e.pending = false ∧ e.status.connected = true) →
      lookupNode nodeId own entry known query k = known.toList) ∧
    (k ≠ nodeId own → (∀ e, entry = some e → e.pending = true ∨ e.status.connected = false) →
      lookupNode nodeId own entry known query k = query) := by
  unfold lookupNode
  refine ⟨fun h => if_pos h, ?_, ?_⟩
  · rintro h ⟨e, rfl, hp, hc⟩
    rw [if_neg h]
    simp [hp, hc]
  · intro h hc
    rw [if_neg h]
    cases entry with
    | none => rfl
    | some e =>
      rcases hc e rfl with h' | h' <;> simp [h']

/-- `lookup_enr` finds the record of the node it is asked for only if all records it is given are of that node:
those with which the node itself answers, and those of the lookup. Then it returns the newest of the node's
answer; without an answer a record of the lookup that is newer than the one in the table, or that one. Missing:
the records are not checked, and a lookup returns the closest nodes, so the hypotheses on them do not hold in
general; see `C73_lookup_enr_violated`. -/
theorem C73_lookup_enr_partial (nodeId : E → Id) (seq : E → Nat) (own : E) (entry : Option (Routing.Entry E))
    (known : Option E) (query : List E) (ask : E → Except ReqErr (List E)) (k : Id) (enr : E)
    (hentry : ∀ e, entry = some e → nodeId e.node.enr = k) (hknown : ∀ e, known = some e → nodeId e = k)
    (hquery : ∀ e ∈ query, nodeId e = k) (hask : ∀ e es, ask e = .ok es → ∀ x ∈ es, nodeId x = k)
    (h : lookupEnr nodeId seq own entry known query ask k = .ok enr) :
    nodeId enr = k ∧
    ((k = nodeId own ∧ enr = own) ∨
     (∃ e es, entry = some e ∧ ask e.node.enr = .ok es ∧ Newest seq es enr) ∨
     (enr ∈ known.toList ++ query ∧ ∀ e, entry = some e → e.pending = false → seq e.node.enr < seq enr) ∨
     (∃ e, entry = some e ∧ e.node.enr = enr ∧ ∀ x ∈ lookupNode nodeId own entry known query k, seq x ≤ seq enr)) := by
  unfold lookupEnr at h
  split at h
  · next hk => cases h; exact ⟨hk.symm, .inl ⟨hk, rfl⟩⟩
  · next hk =>
    have hget : ∀ e, getEnr nodeId own entry k = .ok e → ∃ x, entry = some x ∧ x.node.enr = e ∧ x.pending = false := by
      intro e he
      unfold getEnr at he
      rw [if_neg hk] at he
      split at he
      · next x =>
        split at he
        · cases he
        · next hp => cases he; exact ⟨x, rfl, rfl, by simpa using hp⟩
      · cases he
    have hlook : ∀ x ∈ lookupNode nodeId own entry known query k, x ∈ known.toList ++ query := by
      intro x hx
      unfold lookupNode at hx
      rw [if_neg hk] at hx
      cases entry with
      | none => exact List.mem_append_right _ hx
      | some e =>
        simp only at hx
        split at hx
        · exact List.mem_append_left _ hx
        · exact List.mem_append_right _ hx
    have hall : ∀ x ∈ known.toList ++ query, nodeId x = k := by
      intro x hx
      rcases List.mem_append.1 hx with hx | hx
      · exact hknown x (by simpa using hx)
      · exact hquery x hx
    cases hg : getEnr nodeId own entry k with
    | error err =>
      simp only [hg] at h
      cases hm : maxBySeq seq (lookupNode nodeId own entry known query k) with
      | none => rw [hm] at h; cases h
      | some e =>
        rw [hm] at h
        simp only at h
        split at h
        · cases h
          have hn := maxBySeq_newest hm
          refine ⟨hall _ (hlook _ hn.1), .inr (.inr (.inl ⟨hlook _ hn.1, ?_⟩))⟩
          rintro x rfl hp
          unfold getEnr at hg
          rw [if_neg hk] at hg
          simp [hp] at hg
        · cases h
    | ok e0 =>
      obtain ⟨x, rfl, rfl, hp⟩ := hget e0 hg
      simp only [hg] at h
      have rest : (match maxBySeq seq (lookupNode nodeId own (some x) known query k) with
          | some e => if seq x.node.enr < seq e then Except.ok e else Except.ok x.node.enr
          | none => (Except.ok x.node.enr : Except ReqErr E)) = .ok enr → nodeId enr = k ∧
          ((enr ∈ known.toList ++ query ∧ ∀ e, some x = some e → e.pending = false → seq e.node.enr < seq enr) ∨
          (∃ e, some x = some e ∧ e.node.enr = enr ∧
            ∀ y ∈ lookupNode nodeId own (some x) known query k, seq y ≤ seq enr)) := by
        intro h
        cases hm : maxBySeq seq (lookupNode nodeId own (some x) known query k) with
        | none =>
          rw [hm] at h
          cases h
          refine ⟨hentry _ rfl, .inr ⟨x, rfl, rfl, ?_⟩⟩
          rw [maxBySeq_none hm]; simp
        | some e =>
          rw [hm] at h
          simp only at h
          have hn := maxBySeq_newest hm
          split at h
          · next hlt =>
            cases h
            refine ⟨hall _ (hlook _ hn.1), .inl ⟨hlook _ hn.1, ?_⟩⟩
            rintro y hy -
            cases hy
            exact hlt
          · next hlt =>
            cases h
            refine ⟨hentry _ rfl, .inr ⟨x, rfl, rfl, fun y hy => ?_⟩⟩
            have := hn.2 y hy
            omega
      cases ha : ask x.node.enr with
      | error e =>
        simp only [ha] at h
        obtain ⟨h1, h2⟩ := rest h
        exact ⟨h1, .inr (.inr h2)⟩
      | ok es =>
        simp only [ha] at h
        cases hm : maxBySeq seq es with
        | none =>
          simp only [hm] at h
          obtain ⟨h1, h2⟩ := rest h
          exact ⟨h1, .inr (.inr h2)⟩
        | some e =>
          simp only [hm] at h
          cases h
          have hn := maxBySeq_newest hm
          exact ⟨hask _ _ ha _ hn.1, .inr (.inl ⟨x, es, rfl, ha, hn⟩)⟩

/-- `lookup_enr` returns the record of another node although the lookup found that of the node asked for: the
lookup returns all of the closest nodes and the one with the highest sequence number is taken. Nor is the answer
of the node itself checked: it may give any record as its own. -/
theorem C73_lookup_enr_violated :
    ∃ (own target neighbour : Nat × Nat) (nodeId : Nat × Nat → Id) (seq : Nat × Nat → Nat),
      nodeId target ≠ nodeId neighbour ∧ nodeId target ≠ nodeId own ∧
      (∀ ask, lookupEnr nodeId seq own none none [target, neighbour] ask (nodeId target) = .ok neighbour) ∧
      (∀ status, lookupEnr nodeId seq own (some ⟨Routing.newNode target, status, false⟩) none []
        (fun _ => .ok [neighbour]) (nodeId target) = .ok neighbour) :=
  ⟨(0, 1), (1, 5), (2, 9), fun r => BitVec.ofNat 256 r.1, fun r => r.2, by decide +kernel, by decide +kernel,
    fun _ => rfl, fun _ => rfl⟩

/-- The record of a node that asks is a record of that node, wherever it is found. -/
theorem C73_find_enr (nodeId : E → Id) (cached discv5 : Id → Option E) (entry : Id → Option (Routing.Entry E))
    (nodeQueries contentQueries : List (List E)) (hcached : ∀ k e, cached k = some e → nodeId e = k)
    (hdiscv5 : ∀ k e, discv5 k = some e → nodeId e = k) (hentry : ∀ k e, entry k = some e → nodeId e.node.enr = k)
    (k : Id) :
    (∀ e, findEnr nodeId cached discv5 entry nodeQueries contentQueries k = some e → nodeId e = k) ∧
    (findEnr nodeId cached discv5 entry nodeQueries contentQueries k = none ↔
      cached k = none ∧ discv5 k = none ∧ entry k = none ∧
      ∀ es ∈ nodeQueries ++ contentQueries, ∀ e ∈ es, nodeId e ≠ k) := by
  have hq : ∀ (qs : List (List E)) (e : E),
      (qs.findSome? fun es => es.find? fun e => decide (nodeId e = k)) = some e → nodeId e = k := by
    intro qs e h
    obtain ⟨es, -, h⟩ := List.exists_of_findSome?_eq_some h
    simpa using List.find?_some h
  have hn : ∀ (qs : List (List E)), (qs.findSome? fun es => es.find? fun e => decide (nodeId e = k)) = none ↔
      ∀ es ∈ qs, ∀ e ∈ es, nodeId e ≠ k := by
    intro qs
    simp
  unfold findEnr
  cases h1 : cached k with
  | some e => simp; exact hcached k e h1
  | none =>
    cases h2 : discv5 k with
    | some e => simp; exact hdiscv5 k e h2
    | none =>
      cases h3 : entry k with
      | some e => simp; exact hentry k e h3
      | none =>
        simp only
        cases h4 : nodeQueries.findSome? fun es => es.find? fun e => decide (nodeId e = k) with
        | some e =>
          simp only [Option.some.injEq, reduceCtorEq, true_and, false_iff]
          refine ⟨fun x hx => hx ▸ hq _ e h4, fun h => ?_⟩
          have := (hn nodeQueries).2 fun es hes => h es (List.mem_append_left _ hes)
          rw [h4] at this; cases this
        | none =>
          simp only [true_and]
          refine ⟨fun e h => hq _ e h, ?_⟩
          rw [hn]
          have := (hn nodeQueries).1 h4
          simp only [List.mem_append]
          exact ⟨fun h es hes => hes.elim (this es) (h es), fun h es hes => h es (.inr hes)⟩

/-! ## Publishing -/

/-- Publishing content: it is put into the store if the store wants it; the number of peers in the answer is the
number of offers made, at most eight; each offer is of this content alone, goes to another connected peer, and, if the
radius matters, to one whose radius covers it. -/
theorem C73_put {St : Type} (ops : Offer.StoreOps St K) (nodeId : E → Id) (table : List (KBucket.Entry E))
    (ch : Gossip.Choices E) (hf : GossipSpec.Fair ch) (hd : GossipSpec.DistinctPeers nodeId table)
    (item : K → Bytes → Gossip.Item) (st : St) (k : K) (v : Bytes) :
    ∃ st' info offers, putContent ops nodeId table ch item st k v = some (st', info, offers) ∧
      info.peerCount = offers.length ∧
      (info.storedLocally = true ↔ ops.wants st k = some .store) ∧
      (info.storedLocally = false → st' = st) ∧
      (info.storedLocally = true → ∀ s dropped, ops.put st k v = some (s, dropped) → st' = s) ∧
      (offers.map (·.peer)).Nodup ∧
      (∀ o ∈ offers, o.items = [((item k v).key, (item k v).value)]) ∧
      ((item k v).affected = true → offers.length = min 8 (GossipSpec.covering nodeId table (item k v).id).length ∧
        ∀ o ∈ offers, o.peer ∈ GossipSpec.covering nodeId table (item k v).id) ∧
      ((item k v).affected = false → offers.length = min 8 (GossipSpec.online table).length ∧
        ∀ o ∈ offers, o.peer ∈ GossipSpec.online table) := by
  obtain ⟨r, hr⟩ := C19_no_abort nodeId table ch [item k v]
  have hc : GossipSpec.DistinctItems [item k v] := by simp [GossipSpec.DistinctItems]
  have hprop : ∃ offers count, Gossip.propagate nodeId table ch [item k v] none = some (offers, count) := by
    unfold Gossip.propagate; rw [hr]; exact ⟨_, _, rfl⟩
  obtain ⟨offers, count, hp⟩ := hprop
  obtain ⟨r', hr', hof, hcount, -⟩ := C19_publish hp
  rw [hr] at hr'; cases hr'
  simp only at hof
  obtain ⟨hnd, hsz⟩ := C19_offer_size hf hd hc hr
  have hitems : ∀ x ∈ r, x.2 = [((item k v).key, (item k v).value)] := by
    intro x hx
    obtain ⟨h1, -, h3, h4⟩ := hsz x hx
    have hall : ∀ kv ∈ x.2, kv = ((item k v).key, (item k v).value) := by
      intro kv hkv
      obtain ⟨it, hit, he⟩ := h4 kv hkv
      rw [List.mem_singleton] at hit
      rw [← he, hit]
    match hx2 : x.2 with
    | [] => rw [hx2] at h1; simp at h1
    | [y] => rw [hall y (by rw [hx2]; simp)]
    | y :: z :: l =>
      rw [hx2] at h3 hall
      rw [hall y (by simp), hall z (by simp)] at h3
      simp at h3
  have hpeers : offers.map (·.peer) = r.map (·.1) := by
    rw [hof, List.map_map]; rfl
  have hrecv : GossipSpec.receivers r (item k v) = r.map (·.1) := by
    unfold GossipSpec.receivers
    rw [List.filter_eq_self.2]
    intro x hx
    rw [hitems x hx]; simp
  have hlen : offers.length = (GossipSpec.receivers r (item k v)).length := by
    rw [hrecv, ← hpeers, List.length_map]
  have h8 : offers.length ≤ 8 := by
    rw [hlen]; exact C19_at_most_eight hf hd hc hr (by simp)
  have hmem : ∀ o ∈ offers, o.peer ∈ GossipSpec.receivers r (item k v) := by
    intro o ho
    rw [hrecv, ← hpeers]; exact List.mem_map_of_mem ho
  unfold putContent
  rw [hp]
  refine ⟨_, _, _, rfl, ?_, by simp, ?_, ?_, ?_, ?_, ?_, ?_⟩
  · show count % 2 ^ 32 = offers.length
    rw [hcount rfl]; omega
  · intro h
    simp only at h
    simp [of_decide_eq_false h]
  · intro h s dropped hput
    simp only at h
    simp [of_decide_eq_true h, hput]
  · rw [hpeers]; exact hnd
  · intro o ho
    rw [hof] at ho
    obtain ⟨x, hx, rfl⟩ := List.mem_map.1 ho
    exact hitems x hx
  · intro ha
    obtain ⟨h1, h2, -, -⟩ := C19_neighborhood hf hd hc hr (by simp) (it := item k v) (by simp) ha
    exact ⟨by rw [hlen, h1], fun o ho => h2 _ (hmem o ho)⟩
  · intro ha
    obtain ⟨chosen, h1, -, h3, h4⟩ := C19_random hf hd hc hr (by simp)
    obtain ⟨h5, h6⟩ := h4 (item k v) (by simp) ha
    exact ⟨by rw [hlen, h5, h1], fun o ho => h3 _ ((h6 _).1 (hmem o ho))⟩

/-- The answer says that the content was stored although the store failed to. -/
theorem C73_put_violated :
    ∃ (ops : Offer.StoreOps (List Nat) Nat) (info : PutInfo) (offers : List (Gossip.Offer Nat)),
      putContent ops (fun n => BitVec.ofNat 256 n) [] ⟨fun _ n l => l.take n, fun n l => l.take n⟩
        (fun _ v => ⟨0, true, [1], v⟩) [] 1 [5] = some ([], info, offers) ∧
      info.storedLocally = true :=
  ⟨⟨fun _ _ => some .store, fun _ _ _ => none⟩, ⟨0, true⟩, [], by decide +kernel, rfl⟩

/-! ## Responses and requests -/

/-- A caller is sent a result exactly if it is the first answer to the request it made, and what is processed is
exactly the first answer to each request, with the node that the request went to. Answers that no request waits
for change nothing. -/
theorem C73_matching (events : List (MgrEvent E)) (hn : (submitted events).Nodup) :
    (∀ w r, (w, r) ∈ (mgrRun events).delivered ↔ ∃ a, a.caller = some w ∧ FirstAnswer events a r) ∧
    (∀ e q r, (e, q, r) ∈ (mgrRun events).processed ↔
      ∃ a, a.destination = e ∧ a.request = q ∧ FirstAnswer events a r) ∧
    (∀ id a, findActive id (mgrRun events).active = some a ↔ Waiting events id a) :=
  ⟨delivered_iff events hn, processed_iff events hn, active_iff events hn⟩

/-- No caller is sent two results. -/
theorem C73_once (events : List (MgrEvent E)) (hc : (callers events).Nodup) :
    ((mgrRun events).delivered.map (·.1)).Nodup ∧
    ∀ w ∈ (mgrRun events).delivered.map (·.1), w ∈ callers events := by
  obtain ⟨-, h2, h3⟩ := run_once events hc
  rw [List.nodup_append] at h2
  exact ⟨h2.1, fun w hw => h3 w (List.mem_append_left _ hw)⟩

/-- A caller whose request is answered, after whatever else happened, is sent the first answer, and is sent nothing
before. -/
theorem C73_answered (before between after : List (MgrEvent E)) (id w : Nat) (a : Active E)
    (hw : a.caller = some w) (result : Except ReqErr (Response E))
    (hn : (submitted (before ++ .submit id a :: between ++ .answer id result :: after)).Nodup)
    (hc : (callers (before ++ .submit id a :: between ++ .answer id result :: after)).Nodup)
    (hfirst : id ∉ answered between) :
    (∀ r, (w, r) ∈ (mgrRun (before ++ .submit id a :: between ++ .answer id result :: after)).delivered ↔ r = result) ∧
    (∀ r, (w, r) ∉ (mgrRun (before ++ .submit id a :: between)).delivered) := by
  have hin : (w, result) ∈ (mgrRun (before ++ .submit id a :: between ++ .answer id result :: after)).delivered :=
    (delivered_iff _ hn w result).2 ⟨a, hw, before, between, after, id, rfl, hfirst⟩
  have hone : ∀ r, (w, r) ∈ (mgrRun (before ++ .submit id a :: between ++ .answer id result :: after)).delivered →
      r = result := by
    intro r hr
    have hnd := (C73_once _ hc).1
    exact mem_unique hnd hr hin
  refine ⟨fun r => ⟨hone r, fun h => h ▸ hin⟩, fun r hr => ?_⟩
  have hc' : (callers (before ++ .submit id a :: between)).Nodup := by
    rw [callers_append, List.nodup_append] at hc; exact hc.1
  have hn' : (submitted (before ++ .submit id a :: between)).Nodup := by
    rw [submitted_append, List.nodup_append] at hn; exact hn.1
  obtain ⟨-, h2, -⟩ := run_once _ hc'
  have hact := (active_iff _ hn' id a).2 ⟨before, between, rfl, hfirst⟩
  rw [List.nodup_append] at h2
  exact h2.2.2 w (List.mem_map.2 ⟨_, hr, rfl⟩) w (mem_waitingCallers (findActive_mem hact) hw) rfl

/-! ## Concrete cases -/

namespace OverlayExample

/-- Records are a node id and a sequence number, keys one byte. -/
def codec : EnrCodec Bytes := ⟨id, some, some⟩
theorem codec_lawful : EnrLawful codec := ⟨fun _ => rfl, fun _ => rfl⟩
def nid (e : Bytes) : Id := BitVec.ofNat 256 (e.headD 0).toNat
def big : Bytes := List.replicate 1200 7

/-- Node 9 of version 1 with the peers 1, 2 and (not connected) 3; it has content for 1 and 2, has no interest in
odd keys and wants the other ones; it knows the record of its caller, node 5. -/
def node : Server Bytes UInt8 where
  nodeId := nid
  enr := [9, 1]
  pong := ⟨77, 1000, none⟩
  supported := [.capabilities, .basicRadius]
  table := [⟨[1, 1], true, 50⟩, ⟨[2, 4], true, 60⟩, ⟨[3, 3], false, 70⟩]
  decodeKey := fun b => b.head?
  affected := fun _ => true
  contentId := fun k => BitVec.ofNat 256 k.toNat
  store := fun k => .ok (if k = 1 then some [10, 11] else if k = 2 then some big else none)
  wants := fun k => some (if k ≤ 2 then .alreadyStored else if k % 2 = 1 then .notWithinRadius else .store)
  outSlot := true
  inSlot := true
  asker := some [5, 1]
  version := fun _ => .ok .v1
  rand := 0x1234
  now := fun _ => 1000
  pick := fun _ => 0
  queue := []

def caller : Id := 5
def valid : UInt8 → Bytes → Bool := fun k v => if k = 1 then decide (v = [10, 11]) else decide (v = big)

/-- A ping for the radius. -/
example : (sendPing ⟨3, 500, none⟩ [.capabilities] (askNode codec node caller) (some .basicRadius) none).result =
    .ok ⟨77, .basicRadius, (Ext.basicRadius 1000).payload⟩ := by decide +kernel

/-- Distance 0 and the distances of both peers; the distance 257 is refused. -/
example : (sendFindNodes (askNode codec node caller) [0, 4]).result = .ok (1, [[9, 1], [1, 1], [2, 4]]) ∧
    (sendFindNodes (askNode codec node caller) [0, 257]).result = .error .invalidRequest := by decide +kernel

example : Askable [0, 4] ∧ ¬ Askable [0, 0] := by unfold Askable; decide +kernel

/-- The hypotheses of `C73_find_content_served` for content in the reply and over uTP. -/
example : (sendFindContent (.ok .v1) (fun b => b.head?) valid (askNode codec node caller)
      (connectRead (uTpWork codec node caller (.findContent [2]))) [2]).result = .ok (.content big, true) := by
  have h := C73_find_content_served codec codec_lawful node caller .v1 (fun b => b.head?) valid [2] 2 big (by decide)
    rfl rfl rfl rfl (.inr ⟨⟨[5, 1], .v1, rfl, rfl, rfl⟩, by decide +kernel⟩)
  rw [h]
  decide +kernel

example : (sendFindContent (.ok .v1) (fun b => b.head?) valid (askNode codec node caller)
      (connectRead (uTpWork codec node caller (.findContent [1]))) [1]).result = .ok (.content [10, 11], false) := by
  have h := C73_find_content_served codec codec_lawful node caller .v1 (fun b => b.head?) valid [1] 1 [10, 11] (by decide)
    rfl rfl rfl rfl (.inl (by decide))
  rw [h]
  decide +kernel

/-- A key it has nothing for: the closest peers. -/
example : (sendFindContent (.ok .v1) (fun b => b.head?) valid (askNode codec node caller)
      (connectRead (K := UInt8) none) [3]).result = .ok (.enrs [[2, 4], [1, 1]], false) := by decide +kernel

/-- An offer of four items. -/
def items : List (Bytes × Bytes) := [([4], [40, 41]), ([5], [50]), ([1], [10]), ([6], [60])]

theorem items_answerable : Answerable node.host (items.map (·.1)) .v1 := ⟨by decide, [5, 1], rfl, rfl⟩

example : (sendOffer (.ok .v1) (askNode codec node caller) items).result =
    .ok [.accepted, .notWithinRadius, .alreadyStored, .accepted] := by decide +kernel

/-- The two accepted items are transferred, and the node gets them. -/
example : uTpWork codec node caller (.populatedOfferWithResult items) = some (.read ⟨0x1234, 0x1233⟩ [4, 6]) ∧
    (sendOfferTraceMany (.ok .v1) (askNode codec node caller)
      (fun cid payload => decide (cid = ⟨0x1233, 0x1234⟩ ∧ payload = [2, 40, 41, 1, 60])) items).result =
      .ok (.success [.accepted, .notWithinRadius, .alreadyStored, .accepted]) ∧
    Offer.decodePayload [(4 : UInt8), 6] [2, 40, 41, 1, 60] = some [(4, [40, 41]), (6, [60])] := by
  decide +kernel

/-- The hypotheses of `C73_offer_traced`. -/
example (transfer : ConnId → Bytes → Bool) :
    ∃ x, (sendOfferTraceMany (.ok .v1) (askNode codec node caller) transfer items).result = .ok x := by
  obtain ⟨-, -, h⟩ := C73_offer_traced codec codec_lawful node caller .v1 transfer items (by decide +kernel)
    items_answerable (by decide) [.accepted, .notWithinRadius, .alreadyStored, .accepted] (by decide +kernel)
  obtain ⟨ks, cid, payload, -, -, -, -, h5⟩ := h ⟨_, .head _, rfl⟩
  exact ⟨_, h5⟩

/-- Nothing is accepted, and nothing is transferred. -/
example : (sendOfferTrace (.ok .v1) (askNode codec node caller) (fun _ _ => false) [5] [50]).result =
    .ok (.success .notWithinRadius) := by decide +kernel

/-- Two requests, one of them with a caller; answers that come twice or for nobody. -/
def events : List (MgrEvent Bytes) :=
  [.submit 1 ⟨[1, 1], some 100, .findNodes [0]⟩, .answer 7 (.error .transport), .submit 2 ⟨[2, 4], none, .findNodes [1]⟩,
   .answer 2 (.ok (.nodes 1 [])), .answer 1 (.ok (.nodes 1 [[9, 1]])), .answer 1 (.error .decode)]

example : (submitted events).Nodup ∧ (callers events).Nodup ∧
    (mgrRun events).delivered.map (·.1) = [100] ∧ (mgrRun events).processed.map (·.1) = [[2, 4], [1, 1]] ∧
    (mgrRun events).active.isEmpty = true := by decide +kernel

/-- A table in which new nodes wait for a place for ever. -/
def waiting : Routing.Lib RoutingExample.Rec := { RoutingExample.libW true with settle := fun t _ => t }

theorem waiting_lawful : Routing.Lawful RoutingExample.env 0 waiting :=
  { RoutingExample.lawfulW true with settle := fun _ _ _ => .same _ }

/-- A record that is added, found, deleted, and not found. -/
example :
    let t := (addEnr RoutingExample.lib (fun _ => none) ((3, 1) : RoutingExample.Rec)).2
    tableGet RoutingExample.lib RoutingExample.env.nodeId (0, 1) t 3 = .ok (3, 1) ∧
    tableGet RoutingExample.lib RoutingExample.env.nodeId (0, 1) (RoutingExample.lib.remove t 3) 3 =
      .error .failure := by decide +kernel

/-- A lookup in which only the node asked for is found. -/
example : lookupEnr nid (fun e => (e.getD 1 0).toNat) [9, 1] none none [[1, 1]] (fun _ => .error .transport) 1 =
    .ok [1, 1] := by decide +kernel

/-- Publishing to the two peers that cover the content. -/
example : (putContent (⟨fun _ _ => some .store, fun st k v => some ((k, v) :: st, [])⟩ :
      Offer.StoreOps (List (UInt8 × Bytes)) UInt8) nid node.table
      ⟨fun _ n l => l.take n, fun n l => l.take n⟩ (fun k v => ⟨BitVec.ofNat 256 k.toNat, true, [k], v⟩) [] 4 [40]) =
    some ([(4, [40])], ⟨2, true⟩, [⟨[1, 1], [([4], [40])]⟩, ⟨[2, 4], [([4], [40])]⟩]) := by decide +kernel

end OverlayExample

open OverlayExample in
/-- If the two sides differ about the version, because one of them has an old record of the other, valid content
that is too large for a reply does not arrive. -/
theorem C73_version_skew_violated :
    (sendFindContent (.ok .v0) (fun b => b.head?) valid (askNode codec node caller)
      (connectRead (uTpWork codec node caller (.findContent [2]))) [2]).result = .error .failedValidation ∧
    (sendFindContent (.ok .v1) (fun b => b.head?) valid (askNode codec { node with version := fun _ => .ok .v0 } caller)
      (connectRead (uTpWork codec { node with version := fun _ => .ok .v0 } caller (.findContent [2]))) [2]).result =
        .error .decode ∧
    node.store 2 = .ok (some big) ∧ valid 2 big = true := by
  decide +kernel

open OverlayExample in
/-- A record whose addition succeeded need not be found: it may wait for a place in its bucket. -/
theorem C73_add_pending_violated :
    ∃ (lib : Routing.Lib RoutingExample.Rec) (t : Routing.Table RoutingExample.Rec),
      Routing.Lawful RoutingExample.env 0 lib ∧ (addEnr lib t (3, 1)).1 = .ok () ∧
      tableGet lib RoutingExample.env.nodeId (0, 1) (addEnr lib t (3, 1)).2 3 = .error .failure :=
  ⟨waiting, fun _ => none, waiting_lawful, by decide +kernel, by decide +kernel⟩

/-- Adding an old record of a node replaces a newer one, and the radius the node has announced is forgotten. -/
theorem C73_add_older_violated :
    ∃ (lib : Routing.Lib RoutingExample.Rec) (t : Routing.Table RoutingExample.Rec) (st : Routing.Status),
      Routing.Lawful RoutingExample.env 0 lib ∧ t 3 = some ⟨⟨(3, 8), 100, none, none⟩, st, false⟩ ∧
      (addEnr lib t (3, 1)).1 = .ok () ∧
      ((addEnr lib t (3, 1)).2 3).map (fun e => (e.node.enr, e.node.radius)) = some ((3, 1), 2 ^ 256 - 1) :=
  ⟨RoutingExample.lib, fun k => if k = 3 then some ⟨⟨(3, 8), 100, none, none⟩, ⟨true, false⟩, false⟩ else none,
    ⟨true, false⟩, RoutingExample.lawful, rfl, by decide +kernel, by decide +kernel⟩

end Verif.Props
