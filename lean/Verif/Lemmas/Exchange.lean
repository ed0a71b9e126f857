import Verif.Props.ExchangeSpec
import Verif.Props.Overlay
import Verif.Props.OfferTask
import Verif.Lemmas.StateNodeFeed
import Verif.Model.HistoryNode

/-! # Lemmas about content on its way through nodes -/

set_option linter.unusedSectionVars false

namespace Verif.Exchange
open Verif.Wire Verif.Overlay Verif.OverlaySpec Verif.ExchangeSpec Verif.Props
open Verif.Offer (StoreOps collect storeContent)

variable {St E K : Type} [DecidableEq K] [DecidableEq E]

theorem collect_of_map {α β : Type} {f : α → Option β} {as : List α} {bs : List β} (h : as.map f = bs.map some) :
    collect f as = some bs := by
  induction as generalizing bs with
  | nil => cases bs with
    | nil => rfl
    | cons b bs => simp at h
  | cons a as ih =>
    cases bs with
    | nil => simp at h
    | cons b bs =>
      simp only [List.map_cons, List.cons.injEq] at h
      simp only [collect, h.1, ih h.2]

theorem selected_all {α : Type} {codes : List AcceptCode} {xs : List α} (hl : codes.length = xs.length)
    (h : ∀ c ∈ codes, c = .accepted) : selected codes xs = xs := by
  induction codes generalizing xs with
  | nil => cases xs with
    | nil => rfl
    | cons x xs => simp at hl
  | cons c codes ih =>
    cases xs with
    | nil => simp at hl
    | cons x xs =>
      simp only [selected, h c (List.mem_cons_self ..), if_true]
      rw [ih (by simpa using hl) fun c hc => h c (List.mem_cons_of_mem _ hc)]

/-- All keys are accepted. -/
theorem ready_accepted {c : EnrCodec E} {Shows : K → Bytes → Bytes → Prop} {b : Peer St E K} {s : PeerState St E K}
    {caller : Id} {v : Versions.Version} {items : List (Bytes × Bytes)} {ks : List K} (h : Ready c Shows b s caller v items ks) :
    ∃ a, (Offer.handleOffer (b.now s caller).host s.queue (items.map (·.1))).2 = .ok a ∧
      a.codes.length = items.length ∧ ∀ c ∈ a.codes, c = .accepted := by
  obtain ⟨hn, enr, he, hv⟩ := h.answerable
  have hkeys : collect (b.now s caller).host.decodeKey (items.map (·.1)) = some ks :=
    collect_of_map (by rw [List.map_map]; exact h.keys)
  have hw : collect (b.now s caller).host.wants ks = some (ks.map fun _ => Offer.Decision.store) :=
    collect_of_map (by
      rw [List.map_map]
      exact List.map_congr_left fun k hk => h.wanted k hk)
  have hslot : (b.now s caller).host.slot = true := h.slot
  have hlen : ks.length = items.length := by
    have := congrArg List.length h.keys
    simpa using this.symm
  have hcodes : ∀ c ∈ (Offer.verdictLoop (b.now s caller).host enr 0 s.queue
      (ks.zip (ks.map fun _ => Offer.Decision.store))).2.1, c = .accepted := by
    intro c hc
    obtain ⟨j, hj⟩ := List.getElem?_of_mem hc
    have hjl := (List.getElem?_eq_some_iff.1 hj).1
    rw [Offer.verdictLoop_length, List.length_zip, List.length_map, Nat.min_self] at hjl
    have hz : ∀ (i : Nat) (hi : i < ks.length),
        (ks.zip (ks.map fun _ => Offer.Decision.store))[i]? = some (ks[i], .store) := by
      intro i hi
      rw [List.getElem?_eq_getElem (by simpa using hi)]
      simp
    have := Offer.verdictLoop_free (b.now s caller).host enr 0 s.queue (ks.zip (ks.map fun _ => Offer.Decision.store))
      ks[j] j (hz j hjl) (h.idle _ (List.getElem_mem _)) (by
        intro j' d hj' hd
        rw [hz j' (by omega)] at hd
        have hk := (Prod.mk.inj (Option.some.inj hd)).1
        exact absurd ((List.getElem_inj h.distinct).1 hk) (by omega))
    rw [hj] at this
    exact Option.some.inj this
  unfold Offer.handleOffer
  rw [if_neg (by unfold maxAcceptCodes; omega)]
  simp only [he, hv, hslot, hkeys, hw]
  rw [if_neg (by simp)]
  split
  · exact ⟨_, rfl, by simp [Offer.verdictLoop_length, hlen], hcodes⟩
  · exact ⟨_, rfl, by simp [Offer.verdictLoop_length, hlen], hcodes⟩

/-- What is written and what is read. -/
theorem ready_transfer {c : EnrCodec E} (hc : EnrLawful c) {Shows : K → Bytes → Bytes → Prop} {b : Peer St E K}
    {s : PeerState St E K} {caller : Id} {v : Versions.Version} {items : List (Bytes × Bytes)} {ks : List K}
    (h : Ready c Shows b s caller v items ks) :
    ∃ payload, work c (b.now s caller) caller (encode c (Request.populatedOffer items).toMessage) =
        some (.read (b.now s caller).cid ks) ∧
      arrives (b.now s caller).cid (written c (b.now s caller) caller v items) = some payload ∧
      Offer.decodePayload ks payload = some (ks.zip (items.map (·.2))) := by
  obtain ⟨a, ha, hal, hacc⟩ := ready_accepted h
  obtain ⟨hal', codes, hdec, hcl, hpos, -⟩ := offer_read (s := b.now s caller) h.answerable ha
  obtain ⟨hask, hwork⟩ := offer_asked c hc (b.now s caller) caller (.populatedOffer items) items (.inl rfl) a ha h.offer_size
  have hlen : ks.length = items.length := by
    have := congrArg List.length h.keys
    simpa using this.symm
  have hpos0 : 0 < items.length := List.length_pos_iff.2 h.some
  have hcodes : ∀ c ∈ codes, c = .accepted := by
    intro c hc'
    obtain ⟨i, hi⟩ := List.getElem?_of_mem hc'
    have hil := (List.getElem?_eq_some_iff.1 hi).1
    have : a.codes[i]? = some .accepted := by
      rw [List.getElem?_eq_getElem (by simp at hcl; omega)]
      exact congrArg some (hacc _ (List.getElem_mem _))
    rw [(hpos i).2 this] at hi
    exact (Option.some.inj hi).symm
  have hcl' : codes.length = items.length := by simpa using hcl
  have hne : ∃ c, c ∈ codes ∧ c = .accepted := by
    have : 0 < codes.length := by omega
    exact ⟨codes[0], List.getElem_mem _, hcodes _ (List.getElem_mem _)⟩
  have hd : allDeclined codes = false := by
    cases hd : allDeclined codes with
    | false => rfl
    | true =>
      obtain ⟨c', h1, h2⟩ := hne
      exact absurd h2 ((C03_all_declined codes).1 hd c' h1)
  obtain ⟨payload, hp⟩ := (C02_encode_ok_iff
    (((codes.zip items).filter (fun x => x.1 == .accepted)).map (fun x => x.2.2))).2 (by
      intro x hx
      obtain ⟨y, hy, rfl⟩ := List.mem_map.1 hx
      exact h.value_size y.2 (List.of_mem_zip (List.mem_filter.1 hy).1).2)
  have hsent : Offer.processAccept (K := K) (.ok v) (fun _ => none) (fun _ => none) a.connectionId a.contentKeys
      (.populated items) = .transmit (Offer.swap16 a.connectionId) (Offer.swap16 a.connectionId + 1) payload codes := by
    simp only [Offer.processAccept, hdec, hd, Offer.contentItems, Bool.false_eq_true, if_false]
    rw [hp]
  obtain ⟨e1, -, ks', e3, e4, e5⟩ := C15_end_to_end (b.now s caller).host s.queue items a v (fun _ => none) (fun _ => none)
    h.answerable ha _ _ payload codes hsent
  have hks : ks' = ks := by
    have h1 : ks'.map some = ks.map some := by
      rw [← e3, ← h.keys, List.map_map]; rfl
    exact List.map_inj_right (fun _ _ => Option.some.inj) |>.1 h1
  subst hks
  rw [selected_all (by omega) hacc] at e4 e5
  rw [selected_all (by simp; omega) hacc] at e5
  refine ⟨payload, ?_, ?_, e5⟩
  · rw [show work c (b.now s caller) caller (encode c (Request.populatedOffer items).toMessage) =
      uTpWork c (b.now s caller) caller (.populatedOffer items) from rfl, hwork, e4]
    rfl
  · have e1' : Offer.swap16 a.connectionId = (b.now s caller).cid.send := e1
    have hw : written c (b.now s caller) caller v items =
        some (⟨(b.now s caller).cid.send, (b.now s caller).cid.send + 1⟩, payload) := by
      unfold written
      rw [show sendTalk c (fun body => .ok (serve c (reply c (b.now s caller) caller) body)) (.populatedOffer items) =
        .ok (.accept a.connectionId a.contentKeys) from hask]
      simp only [hsent, e1']
    rw [hw]
    have hm : meets (b.now s caller).cid ⟨(b.now s caller).cid.send, (b.now s caller).cid.send + 1⟩ = true := by
      simp [meets, Server.cid, drawCid]
    simp only [arrives, hm, if_true]

theorem takes_fold {ops : StoreOps St K} {get : St → K → Except Unit (Option Bytes)} {Shows : K → Bytes → Bytes → Prop}
    (gossip : Bool) {st : St} {items : List (K × Bytes)} (h : Takes ops get Shows st items) :
    (∀ x ∈ items, ∃ w, Shows x.1 x.2 w ∧
      get (items.foldl (fun st x => (storeContent ops gossip st x.1 x.2).1) st) x.1 = .ok (some w)) ∧
    ∀ k w, get st k = .ok (some w) →
      get (items.foldl (fun st x => (storeContent ops gossip st x.1 x.2).1) st) k = .ok (some w) := by
  induction h with
  | nil st => exact ⟨by simp, fun _ _ h => h⟩
  | cons st st' k v w rest wanted put shows_ there kept more ih =>
    have h1 : (storeContent ops gossip st k v).1 = st' := by simp [storeContent, wanted, put]
    simp only [List.foldl_cons, h1]
    refine ⟨fun x hx => ?_, fun k' w' h => ih.2 k' w' (kept k' w' h)⟩
    rcases List.mem_cons.1 hx with rfl | hx
    · exact ⟨w, shows_, ih.2 _ _ there⟩
    · exact ih.1 x hx

theorem takes_propagated (env : Offer.TaskEnv St K E) {get : St → K → Except Unit (Option Bytes)}
    {Shows : K → Bytes → Bytes → Prop} {st : St} {items : List (K × Bytes)} (h : Takes env.ops get Shows st items)
    (hv : ∀ x ∈ items, env.valid x.1 x.2 = true) (t : Offer.TaskState St K E) (ht : t.store = st) :
    (Offer.storeValidated env t items).1.propagated = t.propagated ++ items ∧ (Offer.storeValidated env t items).2 = [] := by
  induction h generalizing t with
  | nil st => simp [Offer.storeValidated]
  | cons st st' k v w rest wanted put shows_ there kept more ih =>
    have h1 : storeContent env.ops env.gossipDropped t.store k v = (st', [(k, v)]) := by
      subst ht
      simp [storeContent, wanted, put]
    simp only [Offer.storeValidated, hv (k, v) (List.mem_cons_self ..), if_true, h1]
    obtain ⟨i1, i2⟩ := ih (fun x hx => hv x (List.mem_cons_of_mem _ hx))
      { t with queue := AQ.removeKey t.queue k, store := st', propagated := t.propagated ++ [(k, v)] } rfl
    exact ⟨by rw [i1]; simp, i2⟩

theorem ready_after {c : EnrCodec E} (hc : EnrLawful c) {Shows : K → Bytes → Bytes → Prop} {b : Peer St E K}
    {s : PeerState St E K} {caller : Id} {v : Versions.Version} {items : List (Bytes × Bytes)} {ks : List K}
    (h : Ready c Shows b s caller v items ks) :
    (offerTo c b s caller v items).store = (ks.zip (items.map (·.2))).foldl
        (fun st x => (storeContent b.task.ops b.task.gossipDropped st x.1 x.2).1) s.store ∧
    (offerTo c b s caller v items).passed = ks.zip (items.map (·.2)) ∧
    ∀ k ∈ ks, ∀ e ∈ (offerTo c b s caller v items).queue, e.key ≠ k := by
  obtain ⟨payload, h1, h2, h3⟩ := ready_transfer hc h
  have ho : offerTo c b s caller v items =
      (let t := Offer.inboundTask b.task ⟨(Offer.handleOffer (b.now s caller).host s.queue (items.map (·.1))).1, s.store, [], []⟩ ks
        (some payload); ⟨t.store, t.queue, t.propagated⟩) := by
    unfold offerTo
    simp only [h1, h2]
  have hlen : ks.length = (items.map (·.2)).length := by
    have := congrArg List.length h.keys
    simpa using this.symm
  rw [ho]
  refine ⟨(C53_stored_in_order b.task _ ks payload _ h3 h.valid).1, ?_, fun k hk => ?_⟩
  · obtain ⟨p1, p2⟩ := takes_propagated b.task h.room h.valid
      ⟨(Offer.handleOffer (b.now s caller).host s.queue (items.map (·.1))).1, s.store, [], []⟩ rfl
    simp only [Offer.inboundTask, h3, p2]
    simpa [Offer.fallbacks] using p1
  · refine (C53_keys_freed_partial b.task _ ks (some payload) k).1 (.inl ?_)
    obtain ⟨i, hi⟩ := List.getElem?_of_mem hk
    have hil := (List.getElem?_eq_some_iff.1 hi).1
    have hm : (k, (items.map (·.2))[i]) ∈ ks.zip (items.map (·.2)) := by
      refine List.mem_of_getElem? (i := i) ?_
      rw [List.getElem?_zip_eq_some]
      exact ⟨hi, List.getElem?_eq_getElem _⟩
    exact ⟨_, ⟨payload, _, rfl, h3, hm⟩, h.valid _ hm⟩

theorem filter_of_nodup {α β : Type} [DecidableEq α] {l : List (α × β)} (h : (l.map (·.1)).Nodup) {x : α × β} (hx : x ∈ l) :
    l.filter (fun y => decide (y.1 = x.1)) = [x] := by
  induction l with
  | nil => cases hx
  | cons y l ih =>
    simp only [List.map_cons, List.nodup_cons] at h
    rcases List.mem_cons.1 hx with rfl | hx
    · rw [List.filter_cons_of_pos (by simp), List.filter_eq_nil_iff.2]
      intro z hz
      simp only [decide_eq_true_eq]
      intro he
      exact h.1 (he ▸ List.mem_map_of_mem hz)
    · rw [List.filter_cons_of_neg (by
        simp only [decide_eq_true_eq]
        intro he
        exact h.1 (he ▸ List.mem_map_of_mem hx)), ih h.2 hx]

open Verif.Props.GossipSpec in
/-- The offer of a single item to the next node. -/
theorem offered_next {b : Peer St E K} {s : PeerState St E K} {k : K} {value : Bytes} {n : E} (hp : s.passed = [(k, value)])
    (h : NextFor b k n) : offeredTo b s n = [(b.keyBytes k, value)] := by
  obtain ⟨hf, hd, hs, hn⟩ := h
  let it : Gossip.Item := ⟨b.server.contentId k, b.server.affected k, b.keyBytes k, value⟩
  have hcontent : (s.passed.map fun x => (⟨b.server.contentId x.1, b.server.affected x.1, b.keyBytes x.1, x.2⟩ : Gossip.Item))
      = [it] := by rw [hp]; rfl
  have hdi : DistinctItems [it] := ⟨by simp, by simp⟩
  obtain ⟨r, hr⟩ := C19_no_abort b.server.nodeId b.server.table b.choices [it]
  obtain ⟨s1, s2⟩ := C19_offer_size hf hd hdi hr
  have hit : it ∈ [it] := List.mem_cons_self ..
  have hitems : ∀ x ∈ r, x.2 = [(b.keyBytes k, value)] := by
    intro x hx
    obtain ⟨h1, -, h3, h4⟩ := s2 x hx
    have h5 : ∀ kv ∈ x.2, kv = (b.keyBytes k, value) := by
      intro kv hkv
      obtain ⟨it', hit', he⟩ := h4 kv hkv
      rw [List.mem_singleton.1 hit'] at he
      exact he.symm
    match hx2 : x.2, h1, h3, h5 with
    | [y], _, _, h5 => rw [h5 y (List.mem_cons_self ..)]
    | y :: z :: rest, _, h3, h5 =>
      rw [h5 y (List.mem_cons_self ..), h5 z (List.mem_cons_of_mem _ (List.mem_cons_self ..))] at h3
      simp at h3
  have hrec : n ∈ receivers r it := by
    rcases hn with ⟨ha, hc, h8⟩ | ⟨ha, ho, h8⟩
    · obtain ⟨-, -, g3, g4⟩ := C19_neighborhood hf hd hdi hr (by simp) hit ha
      rcases h8 with h8 | h8
      · exact g3 h8 n hc
      · exact g4 n hc h8
    · obtain ⟨chosen, -, g2, -, g4⟩ := C19_random hf hd hdi hr (by simp)
      exact ((g4 it hit ha).2 n).2 (g2 h8 n ho)
  obtain ⟨x, hx, rfl⟩ := List.mem_map.1 hrec
  have hxr := (List.mem_filter.1 hx).1
  have hlen : r.length ≤ 8 := by
    have h8 := C19_at_most_eight hf hd hdi hr hit
    have : receivers r it = r.map (·.1) := by
      unfold receivers
      rw [List.filter_eq_self.2]
      intro y hy
      rw [hitems y hy]
      simp [it]
    rw [this, List.length_map] at h8
    exact h8
  have hall : Gossip.propagate b.server.nodeId b.server.table b.choices [it] b.slots =
      some (r.map (fun x : E × List (Bytes × Bytes) => (⟨x.1, x.2⟩ : Gossip.Offer E)), r.length) := by
    cases hpr : Gossip.propagate b.server.nodeId b.server.table b.choices [it] b.slots with
    | none =>
      unfold Gossip.propagate at hpr
      rw [hr] at hpr
      cases hpr
    | some y =>
      obtain ⟨offers, count⟩ := y
      obtain ⟨r', hr', ho, -⟩ := C19_publish hpr
      rw [hr] at hr'
      cases hr'
      have hcnt : count = r.length := by
        unfold Gossip.propagate at hpr
        rw [hr] at hpr
        exact (congrArg Prod.snd (Option.some.inj hpr)).symm
      rcases hs with hs | ⟨m, hs, hm⟩
      · rw [hs] at ho
        rw [ho, hcnt]
      · rw [hs] at ho
        simp only [List.take_of_length_le (show r.length ≤ m by omega)] at ho
        rw [ho, hcnt]
  unfold offeredTo passOn
  rw [hcontent, hall]
  simp only [Option.map_some, List.filter_map, List.flatMap_map]
  have hf1 : r.filter ((fun o : Gossip.Offer E => decide (o.peer = x.1)) ∘
      fun x : E × List (Bytes × Bytes) => (⟨x.1, x.2⟩ : Gossip.Offer E)) = [x] := filter_of_nodup s1 hxr
  rw [hf1]
  simpa using hitems x hxr

/-! ## The stores -/

theorem history_takes {Hd Tx Rc Wd : Type} (n : HistoryNode.Node Hd Tx Rc Wd) (sps : List Store.Speed)
    (items : List (ContentKey.Legacy × Bytes)) (st : Store.Config × Store.Store)
    (hcap : st.2.usage st.1 + (items.map fun x => Store.contentSize x.1.toBytes x.2 + st.1.extra).sum ≤ st.1.capacity)
    (hr : ∀ x ∈ items, xorDistance st.1.node (n.db.idOf x.1.toBytes) ≤ st.2.radius)
    (hfresh : ∀ x ∈ items, HistoryNode.get n st x.1 = none)
    (hids : (items.map fun x => n.db.idOf x.1.toBytes).Nodup) :
    Takes (HistoryNode.storeOps n sps) (fun st k => .ok (HistoryNode.get n st k)) (fun _ v w => w = v) st items := by
  induction items generalizing st with
  | nil => exact .nil st
  | cons x rest ih =>
    obtain ⟨k, v⟩ := x
    simp only [List.map_cons, List.sum_cons, List.nodup_cons] at hcap hids
    have hrk : xorDistance st.1.node (n.db.idOf k.toBytes) ≤ st.2.radius := hr (k, v) (List.mem_cons_self ..)
    have hfk : HistoryNode.get n st k = none := hfresh (k, v) (List.mem_cons_self ..)
    obtain ⟨h1, h2⟩ := StateNode.insert_room n.db st.1 sps st.2 k.toBytes v hrk (by omega)
    have hget : ∀ k', HistoryNode.get n (st.1, Store.inserted n.db st.1 st.2 k.toBytes v) k' =
        match HistoryNode.get n st k' with
        | some v => some v
        | none => if n.db.idOf k'.toBytes = n.db.idOf k.toBytes then some v else none := by
      intro k'
      unfold HistoryNode.get Store.lookupValue
      simp only [Store.inserted]
      rw [Store.lookup_insertRow]
      cases Store.lookup st.2.rows (n.db.idOf k'.toBytes) with
      | some kv => rfl
      | none => simp only [Store.newRow, Option.map_none]; split <;> simp_all
    refine .cons st (st.1, Store.inserted n.db st.1 st.2 k.toBytes v) k v v rest ?_ ?_ rfl ?_ ?_ (ih _ ?_ ?_ ?_ hids.2)
    · have hno : Store.hasContent st.2 (n.db.idOf k.toBytes) = false := by
        unfold HistoryNode.get Store.lookupValue at hfk
        unfold Store.hasContent
        cases hl : Store.lookup st.2.rows (n.db.idOf k.toBytes) with
        | none => simp_all
        | some kv => rw [hl] at hfk; cases hfk
      simp only [HistoryNode.storeOps, HistoryNode.wants, hno]
      rw [if_neg (by unfold Store.distance; omega)]
      simp
    · simp only [HistoryNode.storeOps, HistoryNode.put, h1]
      rfl
    · simp only [hget, hfk, if_true]
    · intro k' w' hw
      simp only [Except.ok.injEq] at hw ⊢
      rw [hget, hw]
    · rw [h2]; simp only; omega
    · intro x hx
      exact hr x (List.mem_cons_of_mem _ hx)
    · intro x hx
      rw [hget, hfresh x (List.mem_cons_of_mem _ hx)]
      simp only
      rw [if_neg]
      intro he
      exact hids.1 (he ▸ List.mem_map_of_mem (f := fun x : ContentKey.Legacy × Bytes => n.db.idOf x.1.toBytes) hx)

theorem state_takes (env : Store.Env) (hash : Bytes → Id) (sps : List Store.Speed)
    (items : List (ContentKey.State × Bytes)) (st : Store.Config × Store.Store)
    (hcap : st.2.usage st.1 + (items.map fun x => Store.contentSize x.1.toBytes x.2 + st.1.extra).sum ≤ st.1.capacity)
    (hr : ∀ x ∈ items, xorDistance st.1.node (env.idOf x.1.toBytes) ≤ st.2.radius)
    (hfresh : ∀ x ∈ items, StateStore.get env st.2 x.1 = none)
    (hids : (items.map fun x => env.idOf x.1.toBytes).Nodup)
    (hconv : ∀ x ∈ items, ∃ m, Carries hash x.1 x.2 m) :
    Takes (stateOps env hash sps) (fun st k => .ok (StateStore.get env st.2 k))
      (fun k v w => ∃ m, Carries hash k v m ∧ w = retrieved k m) st items := by
  induction items generalizing st with
  | nil => exact .nil st
  | cons x rest ih =>
    obtain ⟨k, v⟩ := x
    simp only [List.map_cons, List.sum_cons, List.nodup_cons] at hcap hids
    obtain ⟨m, hm⟩ := hconv (k, v) (List.mem_cons_self ..)
    have hrk : xorDistance st.1.node (env.idOf k.toBytes) ≤ st.2.radius := hr (k, v) (List.mem_cons_self ..)
    have hfk : StateStore.get env st.2 k = none := hfresh (k, v) (List.mem_cons_self ..)
    have hl := StateNode.retrieved_length hm
    have hcs : Store.contentSize k.toBytes (retrieved k m) ≤ Store.contentSize k.toBytes v := by
      unfold Store.contentSize; simp only at hl ⊢; omega
    obtain ⟨h1, h2⟩ := StateNode.insert_room env st.1 sps st.2 k.toBytes (retrieved k m) hrk (by omega)
    have hget : ∀ k', StateStore.get env (Store.inserted env st.1 st.2 k.toBytes (retrieved k m)) k' =
        match StateStore.get env st.2 k' with
        | some v => some v
        | none => if env.idOf k'.toBytes = env.idOf k.toBytes then some (retrieved k m) else none := by
      intro k'
      unfold StateStore.get Store.lookupValue
      simp only [Store.inserted]
      rw [Store.lookup_insertRow]
      cases Store.lookup st.2.rows (env.idOf k'.toBytes) with
      | some kv => rfl
      | none => simp only [Store.newRow, Option.map_none]; split <;> simp_all
    refine .cons st (st.1, Store.inserted env st.1 st.2 k.toBytes (retrieved k m)) k v (retrieved k m) rest ?_ ?_ ⟨m, hm, rfl⟩
      ?_ ?_ (ih _ ?_ ?_ ?_ hids.2 fun x hx => hconv x (List.mem_cons_of_mem _ hx))
    · have hno : Store.hasContent st.2 (env.idOf k.toBytes) = false := by
        unfold StateStore.get Store.lookupValue at hfk
        unfold Store.hasContent
        cases hl : Store.lookup st.2.rows (env.idOf k.toBytes) with
        | none => simp_all
        | some kv => rw [hl] at hfk; cases hfk
      simp only [stateOps, StateStore.shouldStore, hno]
      rw [if_neg (by unfold Store.distance; omega)]
      simp
    · simp only [stateOps, StateStore.put, (convert_iff hash k v _).mpr ⟨m, hm, rfl⟩, h1]
    · simp only [hget, hfk, if_true]
    · intro k' w' hw
      simp only [Except.ok.injEq] at hw ⊢
      rw [hget, hw]
    · rw [h2]; simp only; omega
    · intro x hx
      exact hr x (List.mem_cons_of_mem _ hx)
    · intro x hx
      simp only [hget]
      rw [hfresh x (List.mem_cons_of_mem _ hx)]
      simp only
      rw [if_neg]
      intro he
      exact hids.1 (he ▸ List.mem_map_of_mem (f := fun x : ContentKey.State × Bytes => env.idOf x.1.toBytes) hx)

end Verif.Exchange
