import Verif.Lemmas.Exchange
import Verif.Props.HistoryNode

/-! # C95: content given to one node can be fetched from others

A node is offered content (`offerTo`), with everything that happens for it on both sides: the offer and the answer on the
wire, the payload over uTP, the validation, the store. `fetch` is a node that asks for content, `along` a chain of nodes
each of which offers what it received to the next one. -/

set_option linter.unusedSectionVars false

namespace Verif.Props
open Verif.Wire Verif.Overlay Verif.OverlaySpec Verif.Exchange Verif.ExchangeSpec

variable {St E K : Type} [DecidableEq K] [DecidableEq E]

/-- If nothing is in the way, the node has every item afterwards, and still has what it had; it goes on to offer exactly
these items, and none of the keys is being transferred any more.
Missing: a sender with an outdated record of the versions, see `C95_version_violated`. -/
theorem C95_delivered_partial (c : EnrCodec E) (hc : EnrLawful c) (Shows : K → Bytes → Bytes → Prop) (b : Peer St E K)
    (s : PeerState St E K) (caller : Id) (v : Versions.Version) (items : List (Bytes × Bytes)) (ks : List K)
    (h : Ready c Shows b s caller v items ks) :
    let s' := offerTo c b s caller v items
    (∀ x ∈ ks.zip (items.map (·.2)), ∃ w, Shows x.1 x.2 w ∧ b.get s'.store x.1 = .ok (some w)) ∧
    (∀ k w, b.get s.store k = .ok (some w) → b.get s'.store k = .ok (some w)) ∧
    s'.passed = ks.zip (items.map (·.2)) ∧
    ∀ k ∈ ks, ∀ e ∈ s'.queue, e.key ≠ k := by
  obtain ⟨h1, h2, h3⟩ := ready_after hc h
  obtain ⟨h4, h5⟩ := takes_fold b.task.gossipDropped h.room
  simp only
  rw [h1]
  exact ⟨h4, h5, h2, h3⟩

/-- Then any node can fetch it: it gets what the store shows for the item, in the reply if it fits there and over uTP
otherwise, for which both sides must use the same framing. -/
theorem C95_fetched (c : EnrCodec E) (hc : EnrLawful c) (Shows : K → Bytes → Bytes → Prop) (b : Peer St E K)
    (s : PeerState St E K) (caller : Id) (v : Versions.Version) (items : List (Bytes × Bytes)) (ks : List K)
    (h : Ready c Shows b s caller v items ks)
    (reader : Id) (v' : Versions.Version) (decodeKey : Bytes → Option K) (valid : K → Bytes → Bool)
    (key : Bytes) (k : K) (value : Bytes) (hkv : (k, value) ∈ ks.zip (items.map (·.2)))
    (hlen : key.length < 2 ^ 31) (hka : decodeKey key = some k) (hkb : b.server.decodeKey key = some k)
    (hslot : b.server.outSlot = true) (hval : ∀ w, Shows k value w → valid k w = true)
    (hsize : ∀ w, Shows k value w → w.length ≤ 1165 ∨
      (SameFraming (b.now (offerTo c b s caller v items) reader) v' ∧ w.length < 2 ^ 32)) :
    ∃ w, Shows k value w ∧
      fetch c b (offerTo c b s caller v items) reader v' decodeKey valid key =
        .ok (.content w, decide (1165 < w.length)) := by
  obtain ⟨h1, -⟩ := C95_delivered_partial c hc Shows b s caller v items ks h
  obtain ⟨w, hw, hg⟩ := h1 (k, value) hkv
  refine ⟨w, hw, ?_⟩
  have := C73_find_content_served c hc (b.now (offerTo c b s caller v items) reader) reader v' decodeKey valid key k w hlen
    hka hkb hg hslot (hsize w hw)
  rw [hval w hw, if_pos rfl] at this
  exact this

private theorem along_get (c : EnrCodec E) (hc : EnrLawful c) (Shows : K → Bytes → Bytes → Prop) (k : K) (key value : Bytes)
    (stops : List (Stop St E K)) (h : Path c Shows k key value stops) :
    (along c [(key, value)] stops).length = stops.length ∧
    ∀ (i : Nat) (t : Stop St E K), stops[i]? = some t →
      (along c [(key, value)] stops)[i]? = some (offerTo c t.peer t.state t.caller t.version [(key, value)]) ∧
      Ready c Shows t.peer t.state t.caller t.version [(key, value)] [k] := by
  induction h with
  | last t ready =>
    refine ⟨rfl, fun i t' ht => ?_⟩
    cases i with
    | zero => cases ht; exact ⟨rfl, ready⟩
    | succ i => simp at ht
  | cons t n rest ready same next more ih =>
    have hoff : offeredTo t.peer (offerTo c t.peer t.state t.caller t.version [(key, value)]) n.enr = [(key, value)] := by
      rw [offered_next (ready_after hc ready).2.1 next, same]
    have hal : along c [(key, value)] (t :: n :: rest) =
        offerTo c t.peer t.state t.caller t.version [(key, value)] :: along c [(key, value)] (n :: rest) := by
      conv => lhs; unfold along
      simp only [hoff]
    rw [hal]
    refine ⟨by simp [ih.1], fun i t' ht => ?_⟩
    cases i with
    | zero =>
      rw [List.getElem?_cons_zero] at ht ⊢
      rw [← Option.some.inj ht]
      exact ⟨rfl, ready⟩
    | succ i =>
      rw [List.getElem?_cons_succ] at ht ⊢
      exact ih.2 i t' ht

/-- Content travels: on a path on which every node is ready for it and has the next one among those it offers it to, only
the first node needs to be given the content, and every node of the path has it afterwards, however long the path is. -/
theorem C95_relayed (c : EnrCodec E) (hc : EnrLawful c) (Shows : K → Bytes → Bytes → Prop) (k : K) (key value : Bytes)
    (stops : List (Stop St E K)) (h : Path c Shows k key value stops) :
    (along c [(key, value)] stops).length = stops.length ∧
    ∀ (i : Nat) (t : Stop St E K) (s : PeerState St E K), stops[i]? = some t → (along c [(key, value)] stops)[i]? = some s →
      ∃ w, Shows k value w ∧ t.peer.get s.store k = .ok (some w) := by
  obtain ⟨h1, h2⟩ := along_get c hc Shows k key value stops h
  refine ⟨h1, fun i t s ht hs => ?_⟩
  obtain ⟨h3, h4⟩ := h2 i t ht
  rw [h3] at hs
  cases hs
  exact (C95_delivered_partial c hc Shows t.peer t.state t.caller t.version _ _ h4).1 (k, value) (by simp)

/-- The node at the end of the path serves it to whoever asks. -/
theorem C95_relayed_fetched (c : EnrCodec E) (hc : EnrLawful c) (Shows : K → Bytes → Bytes → Prop) (k : K) (key value : Bytes)
    (stops : List (Stop St E K)) (h : Path c Shows k key value stops) (t : Stop St E K) (s : PeerState St E K)
    (ht : stops.getLast? = some t) (hs : (along c [(key, value)] stops).getLast? = some s)
    (reader : Id) (v : Versions.Version) (decodeKey : Bytes → Option K) (valid : K → Bytes → Bool)
    (hlen : key.length < 2 ^ 31) (hka : decodeKey key = some k) (hslot : t.peer.server.outSlot = true)
    (hval : ∀ w, Shows k value w → valid k w = true)
    (hsize : ∀ w, Shows k value w → w.length ≤ 1165 ∨ (SameFraming (t.peer.now s reader) v ∧ w.length < 2 ^ 32)) :
    ∃ w, Shows k value w ∧ fetch c t.peer s reader v decodeKey valid key = .ok (.content w, decide (1165 < w.length)) := by
  obtain ⟨h1, h2⟩ := along_get c hc Shows k key value stops h
  rw [List.getLast?_eq_getElem?] at ht hs
  rw [h1] at hs
  obtain ⟨h3, h4⟩ := h2 _ t ht
  rw [h3] at hs
  cases hs
  have hkb : t.peer.server.decodeKey key = some k := by
    have := h4.keys
    simpa using this
  exact C95_fetched c hc Shows t.peer t.state t.caller t.version _ _ h4 reader v decodeKey valid key k value (by simp) hlen hka
    hkb hslot hval hsize

private theorem read_keys (c : EnrCodec E) (hc : EnrLawful c) (srv : Server E K) (caller : Id) (items : List (Bytes × Bytes))
    (hl : (encode c (Message.offer (E := E) (items.map (·.1)))).length < 2 ^ 32) (cid : ConnId) (ks : List K)
    (h : work c srv caller (encode c (Request.populatedOffer items).toMessage) = some (.read cid ks)) :
    ∀ k ∈ ks, ∃ x ∈ items, srv.decodeKey x.1 = some k := by
  have hw : uTpWork c srv caller (.populatedOffer items) = some (.read cid ks) := h
  cases hr : (Offer.handleOffer srv.host srv.queue (items.map (·.1))).2 with
  | error e =>
    rw [uTpWork_eq c hc srv caller (.populatedOffer items) trivial hl] at hw
    simp only [arriving, handleRequest, hr] at hw
    cases hw
  | ok a =>
    rw [(offer_asked c hc srv caller (.populatedOffer items) items (.inl rfl) a hr hl).2] at hw
    obtain ⟨h1, h2, v, enr, he, hv, -⟩ := offer_codes_length hr
    obtain ⟨c1, c2, -⟩ := C14_connection srv.host srv.queue _ a v ⟨by omega, enr, he, hv⟩ hr
    by_cases hacc : ∃ c ∈ a.codes, c = .accepted
    · obtain ⟨-, ks', e1, e2⟩ := c2 hacc
      rw [e2] at hw
      have hks : selected a.codes ks' = ks := (Job.read.inj (Option.some.inj hw)).2
      intro k hk
      rw [← hks] at hk
      have hk' := (Offer.selected_sublist _ _).subset hk
      have hm : some k ∈ ks'.map some := List.mem_map_of_mem hk'
      rw [← e1, List.map_map] at hm
      obtain ⟨x, hx, he⟩ := List.mem_map.1 hm
      exact ⟨x, hx, he⟩
    · rw [(c1 fun c hc' he => hacc ⟨c, hc', he⟩).2] at hw
      cases hw

/-- Whoever offers whatever to a node, ready or not: all it does to its store is to put content that it wants and found
valid under a key that was offered. -/
theorem C95_only_validated (c : EnrCodec E) (hc : EnrLawful c) (b : Peer St E K) (s : PeerState St E K) (caller : Id)
    (v : Versions.Version) (items : List (Bytes × Bytes))
    (hl : (encode c (Message.offer (E := E) (items.map (·.1)))).length < 2 ^ 32) (I : St → Prop)
    (hI : PutClosed b.task.ops (fun k value => b.task.valid k value = true ∧
      ∃ x ∈ items, b.server.decodeKey x.1 = some k) I) (h : I s.store) :
    I (offerTo c b s caller v items).store := by
  unfold offerTo
  simp only
  split
  · next cid ks hw =>
    have hks := read_keys c hc (b.now s caller) caller items hl cid ks hw
    refine C53_only_validated b.task _ ks _ I (fun s k v s' d h1 h2 => hI s k v s' d h1 ⟨h2.1, hks k ?_⟩) h
    rcases h2.2 with ⟨bytes, pairs, -, hp, hm⟩ | ⟨hm, -⟩
    · obtain ⟨_, -, -, h3, -⟩ := (C15_received ks bytes pairs).1 hp
      rw [← h3]
      exact List.mem_map_of_mem (f := Prod.fst) hm
    · exact hm
  · exact h

/-- And what a node gets when it asks is valid, whatever the other node has in its store. -/
theorem C95_fetch_validated (c : EnrCodec E) (b : Peer St E K) (s : PeerState St E K) (reader : Id) (v : Versions.Version)
    (decodeKey : Bytes → Option K) (valid : K → Bytes → Bool) (key value : Bytes) (utp : Bool)
    (h : fetch c b s reader v decodeKey valid key = .ok (.content value, utp)) :
    ∃ k, decodeKey key = some k ∧ valid k value = true := by
  obtain ⟨k, _, h1, _, h2⟩ := C73_find_content_checked _ _ _ _ _ _ _ _ h
  exact ⟨k, h1, h2.1⟩

/-- The store of a legacy history node takes items for which it has room: they are within its radius, it has none of
them, and their ids differ. What can be read is what was offered. -/
theorem C95_history_room {Hd Tx Rc Wd : Type} (n : HistoryNode.Node Hd Tx Rc Wd) (sps : List Store.Speed)
    (items : List (ContentKey.Legacy × Bytes)) (st : Store.Config × Store.Store)
    (hcap : st.2.usage st.1 + (items.map fun x => Store.contentSize x.1.toBytes x.2 + st.1.extra).sum ≤ st.1.capacity)
    (hr : ∀ x ∈ items, xorDistance st.1.node (n.db.idOf x.1.toBytes) ≤ st.2.radius)
    (hfresh : ∀ x ∈ items, HistoryNode.get n st x.1 = none)
    (hids : (items.map fun x => n.db.idOf x.1.toBytes).Nodup) :
    Takes (HistoryNode.storeOps n sps) (fun st k => .ok (HistoryNode.get n st k)) (fun _ v w => w = v) st items :=
  history_takes n sps items st hcap hr hfresh hids

/-- So does the store of a state node, for content with a proof of the node or code that the key names; what can be read
is that node or code without the proof. -/
theorem C95_state_room (env : Store.Env) (hash : Bytes → Id) (sps : List Store.Speed)
    (items : List (ContentKey.State × Bytes)) (st : Store.Config × Store.Store)
    (hcap : st.2.usage st.1 + (items.map fun x => Store.contentSize x.1.toBytes x.2 + st.1.extra).sum ≤ st.1.capacity)
    (hr : ∀ x ∈ items, xorDistance st.1.node (env.idOf x.1.toBytes) ≤ st.2.radius)
    (hfresh : ∀ x ∈ items, StateStore.get env st.2 x.1 = none)
    (hids : (items.map fun x => env.idOf x.1.toBytes).Nodup)
    (hconv : ∀ x ∈ items, ∃ m, Carries hash x.1 x.2 m) :
    Takes (stateOps env hash sps) (fun st k => .ok (StateStore.get env st.2 k))
      (fun k v w => ∃ m, Carries hash k v m ∧ w = retrieved k m) st items :=
  state_takes env hash sps items st hcap hr hfresh hids hconv

end Verif.Props

/-! ## Concrete cases -/

namespace Verif.ExchangeExample
open Verif Verif.Wire Verif.Overlay Verif.OverlaySpec Verif.Exchange Verif.ExchangeSpec Verif.Props

open Verif.Props.OverlayExample (codec codec_lawful nid big)

/-- A node with the number `i` and the peers `peers` of large radius. Its store is a list; content is valid if it begins
with its key, and wanted if the node does not have it. It has records of the nodes 5 and up to 9. -/
def peer (i : UInt8) (peers : List UInt8) (version : Versions.Version) : Peer (List (UInt8 × Bytes)) Bytes UInt8 where
  server := { OverlayExample.node with
    enr := [i, 1], table := peers.map fun p => ⟨[p, 1], true, 2 ^ 256 - 1⟩, version := fun _ => .ok version }
  known := fun id => if id.toNat < 10 then some [UInt8.ofNat id.toNat, 1] else none
  task :=
    { ops := ⟨fun st k => some (if st.any (fun x => x.1 == k) then .alreadyStored else .store),
        fun st k v => some (st ++ [(k, v)], [])⟩
      gossipDropped := true
      valid := fun k v => decide (v.head? = some k)
      affected := fun _ => true
      fetch := fun _ _ => none
      pick := fun _ => 0 }
  get := fun st k => .ok ((st.find? fun x => x.1 == k).map (·.2))
  keyBytes := fun k => [k]
  choices := ⟨fun _ n l => l.take n, fun n l => l.take n⟩
  slots := some 50

def empty : PeerState (List (UInt8 × Bytes)) Bytes UInt8 := ⟨[(1, [1, 1])], [], []⟩

def same (_ : UInt8) (v w : Bytes) : Prop := w = v

/-- Three items for a node that has another one. -/
def items : List (Bytes × Bytes) := [([4], [4, 40]), ([6], [6]), ([7], 7 :: big)]

theorem ready : Ready codec same (peer 2 [3] .v1) empty 5 .v1 items [4, 6, 7] where
  some := by decide
  keys := by decide
  distinct := by decide
  answerable := ⟨by decide, [5, 1], by decide, rfl⟩
  offer_size := by decide +kernel
  value_size := by decide +kernel
  slot := rfl
  idle := by simp [empty]
  wanted := by decide
  valid := by decide +kernel
  room := by
    refine .cons _ [(1, [1, 1]), (4, [4, 40])] _ _ [4, 40] _ (by decide) rfl rfl (by decide) ?_ (.cons _
      [(1, [1, 1]), (4, [4, 40]), (6, [6])] _ _ [6] _ (by decide) rfl rfl (by decide) ?_ (.cons _
      [(1, [1, 1]), (4, [4, 40]), (6, [6]), (7, 7 :: big)] _ _ (7 :: big) _ (by decide) rfl rfl (by decide +kernel) ?_ (.nil _)))
    all_goals
      intro k w h
      simp only [peer, empty, Except.ok.injEq, List.find?] at h ⊢
      revert h
      repeat' split
      all_goals simp_all

/-- They can be fetched, the long one over uTP. -/
example : (∃ w, same 7 (7 :: big) w ∧ fetch codec (peer 2 [3] .v1) (offerTo codec (peer 2 [3] .v1) empty 5 .v1 items) 6 .v1
      (fun b => b.head?) (fun k v => decide (v.head? = some k)) [7] = .ok (.content w, decide (1165 < w.length))) :=
  C95_fetched codec codec_lawful same _ _ 5 .v1 items [4, 6, 7] ready 6 .v1 (fun b => b.head?) _ [7] 7 (7 :: big)
    (by decide +kernel) (by decide) rfl rfl rfl (fun w h => by cases h; rfl)
    (fun w h => .inr ⟨⟨[6, 1], .v1, by decide, rfl, rfl⟩, by cases h; decide +kernel⟩)

/-- A path of three nodes. -/
def path : List (Stop (List (UInt8 × Bytes)) Bytes UInt8) :=
  [⟨peer 2 [1, 3] .v1, empty, [2, 1], 5, .v1⟩, ⟨peer 3 [4, 2] .v0, empty, [3, 1], 2, .v0⟩, ⟨peer 4 [] .v1, empty, [4, 1], 3, .v1⟩]

theorem one_ready (i : UInt8) (peers : List UInt8) (v : Versions.Version) (caller : Id) (h : caller.toNat < 10) :
    Ready codec same (peer i peers v) empty caller v [([4], [4, 40])] [4] where
  some := by decide
  keys := by rfl
  distinct := by decide
  answerable := ⟨by decide, [UInt8.ofNat caller.toNat, 1], by simp [Server.host, Peer.now, peer, h], rfl⟩
  offer_size := by decide +kernel
  value_size := by decide
  slot := rfl
  idle := by simp [empty]
  wanted := by simp [peer, empty]
  valid := by simp [peer]
  room := by
    refine .cons _ [(1, [1, 1]), (4, [4, 40])] _ _ [4, 40] _ (by simp [peer, empty]) rfl rfl (by simp [peer]) ?_ (.nil _)
    intro k w h
    simp only [peer, empty, Except.ok.injEq, List.find?] at h ⊢
    revert h
    repeat' split
    all_goals simp_all

theorem fair (i : UInt8) (peers : List UInt8) (v : Versions.Version) : GossipSpec.Fair (peer i peers v).choices :=
  ⟨fun _ n l => ⟨List.length_take .., _, .refl _, List.take_sublist ..⟩, fun n l => ⟨List.length_take .., _, .refl _, List.take_sublist ..⟩⟩

theorem path_path : Path codec same 4 [4] [4, 40] path :=
  .cons _ _ _ (one_ready 2 [1, 3] .v1 5 (by decide)) rfl
    ⟨fair .., by unfold GossipSpec.DistinctPeers; decide +kernel, .inr ⟨50, rfl, by decide⟩,
      .inl ⟨rfl, by decide +kernel, .inl (by decide +kernel)⟩⟩
    (.cons _ _ _ (one_ready 3 [4, 2] .v0 2 (by decide)) rfl
      ⟨fair .., by unfold GossipSpec.DistinctPeers; decide +kernel, .inr ⟨50, rfl, by decide⟩,
        .inl ⟨rfl, by decide +kernel, .inl (by decide +kernel)⟩⟩
      (.last _ (one_ready 4 [] .v1 3 (by decide))))

/-- All three have it. -/
example : (along codec [([4], [4, 40])] path).map (fun s => s.store) =
    [[(1, [1, 1]), (4, [4, 40])], [(1, [1, 1]), (4, [4, 40])], [(1, [1, 1]), (4, [4, 40])]] := by decide +kernel

/-- Without the middle node nothing arrives at the last one. -/
example : (along codec [([4], [4, 40])] [path[0], path[2]]).map (fun s => s.store) =
    [[(1, [1, 1]), (4, [4, 40])], [(1, [1, 1])]] := by decide +kernel

end Verif.ExchangeExample

namespace Verif.Props
open Verif.Exchange Verif.ExchangeSpec

open ExchangeExample OverlayExample in
/-- Both sides must have found the same version. If the node that offers goes by an older record of the other one, the
other one accepts the content, but nothing arrives. -/
theorem C95_version_violated : ∃ (b : Peer (List (UInt8 × Bytes)) Bytes UInt8) (s : PeerState (List (UInt8 × Bytes)) Bytes UInt8),
    Ready codec same b s 5 .v1 [([4], [4, 40])] [4] ∧
    (Overlay.work codec (b.now s 5) 5 (Wire.encode codec (Wire.Request.populatedOffer [([4], [4, 40])]).toMessage)).isSome = true ∧
    (offerTo codec b s 5 .v1 [([4], [4, 40])]).store = s.store ++ [(4, [4, 40])] ∧
    (offerTo codec b s 5 .v0 [([4], [4, 40])]).store = s.store :=
  ⟨peer 2 [3] .v1, ExchangeExample.empty, one_ready 2 [3] .v1 5 (by decide), by decide +kernel, by decide +kernel, by decide +kernel⟩

end Verif.Props
