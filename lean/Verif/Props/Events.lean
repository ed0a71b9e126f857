import Verif.Lemmas.Events

/-! # C74: requests and events reach the subnetworks they are meant for -/

namespace Verif.Props
open Verif.Events Verif.Props.EventsSpec
open Verif.E2store (Res)
open Verif.Capacity (Subnetwork)

/-- On each network, the identifiers and the subnetworks correspond one to one: looking up the
identifier of a subnetwork gives that subnetwork and the other way round. They are the ones of the
specification. -/
theorem C74_identifiers (net : Network) (s : Subnetwork) (p : Bytes) :
    (subnetworkOf net (Hex.hexEncodeUpper p) = some s ↔ wireId net s = some p) ∧
    (sendProtocol net s = .ok p ↔ wireId net s = some p) := by
  refine ⟨subnetworkOf_upper net p s, ?_⟩
  rw [sendProtocol_eq]
  cases wireId net s with
  | none => simp
  | some b => simp

/-- No two subnetworks of a network share an identifier. -/
theorem C74_identifiers_distinct (net : Network) (s t : Subnetwork) (p : Bytes)
    (hs : wireId net s = some p) (ht : wireId net t = some p) : s = t := by
  have h1 := (subnetworkOf_upper net p s).2 hs
  have h2 := (subnetworkOf_upper net p t).2 ht
  rw [h1] at h2
  exact Option.some.inj h2

/-- Sending a request does not abort for the subnetworks that a node can run, nor for uTP. -/
theorem C74_send_total (net : Network) (p : Party) : ∃ bs, sendProtocol net p.sub = .ok bs := by
  rw [sendProtocol_eq]
  cases net <;> cases p <;> exact ⟨_, rfl⟩

/-- For a subnetwork that the test networks do not have, sending aborts. -/
theorem C74_send_violated : sendProtocol .angelfood .history = .panic := by
  rw [sendProtocol_eq]; rfl

/-- Whatever requests, events and failures come in, and in whatever order: each party that was
started is handed exactly what is meant for it, once, in the order of arrival, until it goes away. -/
theorem C74_routing (net : Network) (subs : List Subnetwork) (is : List Input) (p : Party)
    (hp : p = .utp ∨ p.sub ∈ subs) :
    inbox (run (initNode net subs) is) p = some ((whileThere p is).filterMap (meantFor net p)) := by
  have hc : chan (initNode net subs) p = some ⟨true, []⟩ := by
    cases p with
    | utp => rfl
    | legacyHistory =>
      have : Subnetwork.legacyHistory ∈ subs := by
        cases hp with
        | inl h => cases h
        | inr h => exact h
      simp [chan, initNode, this]
    | state =>
      have : Subnetwork.state ∈ subs := by
        cases hp with
        | inl h => cases h
        | inr h => exact h
      simp [chan, initNode, this]
    | beacon =>
      have : Subnetwork.beacon ∈ subs := by
        cases hp with
        | inl h => cases h
        | inr h => exact h
      simp [chan, initNode, this]
  rw [live_run p is _ (by rw [hc]; rfl), inbox_eq, hc]
  simp [initNode]

/-- A party that was not started is never handed anything, and nobody else gets what was meant for
it: what the others get does not depend on it (`C74_routing`). -/
theorem C74_not_started (net : Network) (subs : List Subnetwork) (is : List Input) (p : Party)
    (hp : p ≠ .utp) (hs : p.sub ∉ subs) : inbox (run (initNode net subs) is) p = none := by
  have hc : chan (initNode net subs) p = none := by
    cases p with
    | utp => exact absurd rfl hp
    | legacyHistory => simpa [chan, initNode, Party.sub] using hs
    | state => simpa [chan, initNode, Party.sub] using hs
    | beacon => simpa [chan, initNode, Party.sub] using hs
  rw [dead_run p is _ (by rw [hc]; rfl), inbox_eq, hc]
  rfl

/-- Between two nodes of the same network: what one sends on a subnetwork is handed to exactly that
subnetwork of the other if it listens, and to nobody else, whatever happened before. -/
theorem C74_same_network (net : Network) (subs : List Subnetwork) (pre : List Input) (s p : Party)
    (sender : Id) (body bs : Bytes) (h : sendProtocol net s.sub = .ok bs) :
    inbox (run (initNode net subs) (pre ++ [.talk ⟨sender, bs, body⟩])) p =
      if p = s ∧ listens (run (initNode net subs) pre) p then
        (inbox (run (initNode net subs) pre) p).map (· ++ [.talk ⟨sender, bs, body⟩])
      else inbox (run (initNode net subs) pre) p := by
  have hw : wireId net s.sub = some bs := ((C74_identifiers net s.sub bs).2).1 h
  rw [inbox_snoc, show (initNode net subs).net = net from rfl]
  simp only [meantFor]
  by_cases hp : p = s
  · subst hp
    rw [if_pos hw.symm]
    simp
  · rw [if_neg (c := some bs = wireId net p.sub)]
    · simp [hp]
    · intro hc
      have := C74_identifiers_distinct net _ _ bs hc.symm hw
      apply hp
      revert this
      cases p <;> cases s <;> simp [Party.sub]

/-- A request with bytes that are no identifier of a subnetwork that the node can run, and that are
not those of uTP, is handed to nobody. -/
theorem C74_unknown_protocol (net : Network) (subs : List Subnetwork) (r : TalkReq)
    (h : ∀ p : Party, wireId net p.sub ≠ some r.protocol) (pre : List Input) (p : Party) :
    inbox (run (initNode net subs) (pre ++ [.talk r])) p =
      inbox (run (initNode net subs) pre) p := by
  rw [inbox_snoc, show (initNode net subs).net = net from rfl]
  simp only [meantFor]
  rw [if_neg (fun hc => h p hc.symm)]

/-- Requests of the main network are handed to nobody on a test network, and the other way round,
except those of uTP. -/
theorem C74_networks_separate (a b : Network) (h : ¬ (a = .mainnet ↔ b = .mainnet))
    (s p : Party) (hs : s ≠ .utp) (sender : Id) (body bs : Bytes)
    (hsend : sendProtocol a s.sub = .ok bs) (subs : List Subnetwork) (pre : List Input) :
    inbox (run (initNode b subs) (pre ++ [.talk ⟨sender, bs, body⟩])) p =
      inbox (run (initNode b subs) pre) p := by
  have hw : wireId a s.sub = some bs := ((C74_identifiers a s.sub bs).2).1 hsend
  rw [inbox_snoc, show (initNode b subs).net = b from rfl]
  simp only [meantFor]
  rw [if_neg (c := some bs = wireId b p.sub)]
  rw [← hw]
  revert h hs
  cases a <;> cases b <;> cases s <;> cases p <;> decide

/-- The two test networks have the same identifiers: a request sent on one of them is handed to the
subnetwork of that name on the other. -/
theorem C74_testnets_violated (s : Party) (sender : Id) (body : Bytes) :
    ∃ bs, sendProtocol .sepolia s.sub = .ok bs ∧
      inbox (run (initNode .angelfood [.beacon, .legacyHistory, .state])
        [.talk ⟨sender, bs, body⟩]) s = some [.talk ⟨sender, bs, body⟩] := by
  obtain ⟨bs, hbs⟩ := C74_send_total .sepolia s
  refine ⟨bs, hbs, ?_⟩
  have hw : wireId .sepolia s.sub = some bs := ((C74_identifiers .sepolia s.sub bs).2).1 hbs
  rw [C74_routing]
  · have : wireId .angelfood s.sub = wireId .sepolia s.sub := by cases s <;> rfl
    simp [whileThere, meantFor, this, hw]
  · cases s <;> simp [Party.sub]

/-- An event never comes back to where it comes from, goes to nobody whom it does not name, never to
uTP, and reaches every other subnetwork that listens. -/
theorem C74_event (net : Network) (subs : List Subnetwork) (pre : List Input) (p : Party)
    (e : Event) :
    inbox (run (initNode net subs) (pre ++ [.event e])) p =
      if p ≠ .utp ∧ e.source ≠ p.sub ∧ (e.destination = none ∨ ∃ ds, e.destination = some ds ∧ p.sub ∈ ds) ∧
          listens (run (initNode net subs) pre) p then
        (inbox (run (initNode net subs) pre) p).map (· ++ [.event e])
      else inbox (run (initNode net subs) pre) p := by
  rw [inbox_snoc, show (initNode net subs).net = net from rfl]
  simp only [meantFor]
  have hiff : (∀ ds, e.destination = some ds → p.sub ∈ ds) ↔
      (e.destination = none ∨ ∃ ds, e.destination = some ds ∧ p.sub ∈ ds) := by
    cases e.destination <;> simp
  simp only [hiff]
  by_cases hc : p ≠ .utp ∧ e.source ≠ p.sub ∧
      (e.destination = none ∨ ∃ ds, e.destination = some ds ∧ p.sub ∈ ds)
  · rw [if_pos hc]
    obtain ⟨h1, h2, h3⟩ := hc
    simp only [h1, h2, h3, ne_eq, not_false_eq_true, true_and]
  · rw [if_neg hc, if_neg (fun h => hc ⟨h.1, h.2.1, h.2.2.1⟩)]

/-- An event for a subnetwork that cannot be run reaches nobody; only a log line says so. -/
theorem C74_event_lost_violated (net : Network) (subs : List Subnetwork) (pre : List Input)
    (e : Event) (h : e.destination = some [.history]) (p : Party) :
    inbox (run (initNode net subs) (pre ++ [.event e])) p =
      inbox (run (initNode net subs) pre) p := by
  rw [C74_event, if_neg]
  intro hc
  rcases hc.2.2.1 with h' | ⟨ds, h', hm⟩
  · rw [h] at h'; cases h'
  · rw [h] at h'
    cases h'
    revert hm
    cases p <;> simp [Party.sub]

/-- The main loop aborts at the start exactly if no overlay network was started. -/
theorem C74_start (net : Network) (subs : List Subnetwork) (is : List Input) :
    (start (initNode net subs) is = .panic ↔ ∀ p : Party, p ≠ .utp → p.sub ∉ subs) ∧
    ((∃ p : Party, p ≠ .utp ∧ p.sub ∈ subs) →
      start (initNode net subs) is = .ok (run (initNode net subs) is)) := by
  have key : ((initNode net subs).legacyHistory.isNone && (initNode net subs).state.isNone &&
      (initNode net subs).beacon.isNone) = true ↔ ∀ p : Party, p ≠ .utp → p.sub ∉ subs := by
    simp only [initNode, Bool.and_eq_true]
    constructor
    · intro h p hp
      cases p with
      | utp => exact absurd rfl hp
      | legacyHistory =>
        intro hc
        have := h.1.1
        simp [show Subnetwork.legacyHistory ∈ subs from hc] at this
      | state =>
        intro hc
        have := h.1.2
        simp [show Subnetwork.state ∈ subs from hc] at this
      | beacon =>
        intro hc
        have := h.2
        simp [show Subnetwork.beacon ∈ subs from hc] at this
    · intro h
      have h1 := h .legacyHistory (by simp)
      have h2 := h .state (by simp)
      have h3 := h .beacon (by simp)
      simp only [Party.sub] at h1 h2 h3
      simp [h1, h2, h3]
  unfold start
  constructor
  · constructor
    · intro h
      split at h
      · rename_i hc; exact key.1 hc
      · cases h
    · intro h; rw [if_pos (key.2 h)]
  · intro ⟨p, hp, hm⟩
    rw [if_neg]
    intro hc
    exact key.1 hc p hp hm

/-! ## Time -/

/-- The time in an event is the number of whole milliseconds since the Unix epoch, for every time
until the year 292 million; an earlier time counts as the epoch. It is never taken for a missing one.
Missing: later times, see `C74_timestamp_violated`. -/
theorem C74_timestamp_partial (time : Int) (h : time < 2 ^ 63 * 1000000) :
    (Timestamp.ofTime time).toMillis = some (max 0 (time / 1000000)) := by
  unfold Timestamp.ofTime Timestamp.toMillis millisToEpoch
  by_cases hneg : time < 0
  · simp only [hneg, if_true]
    have : time / 1000000 < 0 := by omega
    simp; omega
  · simp only [hneg, if_false]
    have hlt : time.toNat / 1000000 < 2 ^ 63 := by omega
    have : (BitVec.ofNat 64 (time.toNat / 1000000)).toInt = time / 1000000 := by
      rw [BitVec.toInt_eq_toNat_of_lt (by rw [BitVec.toNat_ofNat]; omega), BitVec.toNat_ofNat]
      omega
    rw [this]
    have h0 : 0 ≤ time / 1000000 := by omega
    rw [if_neg (by omega)]
    congr 1
    omega

/-- Beyond that the cast wraps: there is a time that counts as a missing one. -/
theorem C74_timestamp_violated : ∃ time : Int, (Timestamp.ofTime time).toMillis = none :=
  ⟨(2 ^ 64 - 1) * 1000000, by decide +kernel⟩

/-- During the twelve seconds of a slot the clock shows that slot, for the slots below 2^32. -/
theorem C74_slot_clock (net : Network) (slot nanos : Nat) (hs : slot < 2 ^ 32)
    (hn : nanos < 12000000000) :
    currentSlot net (slotToTimestamp net slot * 1000000000 + nanos) = .ok slot := by
  unfold currentSlot slotToTimestamp
  rw [Nat.mod_eq_of_lt hs]
  generalize genesis net = g
  rw [if_neg (by omega)]
  congr 1
  have : (g + 12 * slot) * 1000000000 + nanos - g * 1000000000 = slot * 12000000000 + nanos := by
    omega
  rw [this, Nat.div_div_eq_div_mul]
  omega

/-- Consecutive slots below 2^32 begin twelve seconds apart, the first one at the genesis.
Missing: later slots, see `C74_slot_times_violated`. -/
theorem C74_slot_times_partial (net : Network) (slot : Nat) (hs : slot + 1 < 2 ^ 32) :
    slotToTimestamp net 0 = chainBegan net ∧
    slotToTimestamp net (slot + 1) = slotToTimestamp net slot + 12 := by
  unfold slotToTimestamp
  rw [Nat.mod_eq_of_lt hs, Nat.mod_eq_of_lt (by omega : slot < 2 ^ 32)]
  exact ⟨by cases net <;> rfl, by omega⟩

/-- Slot 2^32 is given the time of the genesis. -/
theorem C74_slot_times_violated (net : Network) :
    slotToTimestamp net (2 ^ 32) = chainBegan net ∧
      ¬ slotToTimestamp net (2 ^ 32) = slotToTimestamp net (2 ^ 32 - 1) + 12 := by
  cases net <;> decide

/-- Before the genesis there is no current slot: the code aborts. Afterwards it never does. -/
theorem C74_slot_clock_aborts (net : Network) (now : Nat) :
    currentSlot net now = .panic ↔ now < chainBegan net * 1000000000 := by
  rw [show chainBegan net = genesis net by cases net <;> rfl]
  unfold currentSlot
  split <;> simp_all

/-! ## Addresses of nodes -/

/-- Whatever was done to the cache of addresses, what it gives for a node is the address that was put
last for this node. -/
theorem C74_cache_latest (cap : Nat) (ops : List CacheOp) (id : Id) (a : NodeAddr)
    (h : ((Cache.run ⟨cap, []⟩ ops).get id).1 = some a) : lastPut ops id = some a := by
  have key : ∀ ops : List CacheOp, ∀ b ∈ (Cache.run ⟨cap, []⟩ ops).entries,
      lastPut ops b.id = some b := by
    intro ops
    generalize hr : ops.reverse = r
    induction r generalizing ops with
    | nil =>
      have : ops = [] := by simpa using hr
      subst this
      intro b hb
      cases hb
    | cons op r ih =>
      have ho : ops = r.reverse ++ [op] := by
        have := congrArg List.reverse hr
        simpa using this
      subst ho
      intro b hb
      have : Cache.run ⟨cap, []⟩ (r.reverse ++ [op]) = (Cache.run ⟨cap, []⟩ r.reverse).step op := by
        simp [Cache.run]
      rw [this] at hb
      have hi := ih r.reverse (by simp)
      rcases step_mem hb with h1 | ⟨h1, h2⟩
      · subst h1
        simp [lastPut]
      · have := hi b h1
        rw [← this]
        cases op with
        | put x =>
          have hx := h2 x rfl
          simp [lastPut, hx]
        | get i => simp [lastPut]
  have hm : a ∈ (Cache.run ⟨cap, []⟩ ops).entries ∧ a.id = id := by
    unfold Cache.get at h
    cases hf : (Cache.run ⟨cap, []⟩ ops).entries.find? (fun b => b.id = id) with
    | none => rw [hf] at h; cases h
    | some x => rw [hf] at h; cases h; exact get_some hf
  have := key ops a hm.1
  rwa [hm.2] at this

/-- The cache never holds more than its capacity. -/
theorem C74_cache_size (cap : Nat) (ops : List CacheOp) :
    (Cache.run ⟨cap, []⟩ ops).entries.length ≤ cap ∧
      ((Cache.run ⟨cap, []⟩ ops).entries.map (·.id)).Nodup :=
  ⟨run_size ops ⟨cap, []⟩ (Nat.zero_le _), run_distinct ops ⟨cap, []⟩ (by simp [Cache.Distinct])⟩

/-- An address that was put is kept as long as fewer other nodes than the capacity are put or asked
for afterwards. -/
theorem C74_cache_kept (cap : Nat) (pre ops : List CacheOp) (a : NodeAddr) (others : List Id)
    (hlen : others.length < cap) (hops : ∀ op ∈ ops, op.id = a.id ∨ op.id ∈ others) :
    ((Cache.run ⟨cap, []⟩ (pre ++ .put a :: ops)).get a.id).1 =
      lastPut (pre ++ .put a :: ops) a.id := by
  let c0 := Cache.run ⟨cap, []⟩ pre
  have hrun : Cache.run ⟨cap, []⟩ (pre ++ .put a :: ops) = (c0.put a).run ops := by
    simp [Cache.run, c0, Cache.step]
  have hcap : c0.cap = cap := run_cap pre ⟨cap, []⟩
  have hd : c0.Distinct := run_distinct pre ⟨cap, []⟩ (by simp [Cache.Distinct])
  have ha : Ahead (c0.put a) a.id others := by
    refine ahead_front _ ((c0.entries.filter fun b => b.id ≠ a.id).take (c0.cap - 1)) a others ?_
    simp only [Cache.put]
    rw [List.take_cons (by omega)]
  have hres := ahead_run ops (c0.put a) (put_distinct c0 a hd)
    (by show others.length < c0.cap; omega) ha hops
  obtain ⟨l1, x, l2, hx, hid, _⟩ := hres
  have hsome : ∃ y, ((Cache.run ⟨cap, []⟩ (pre ++ .put a :: ops)).get a.id).1 = some y := by
    rw [hrun]
    unfold Cache.get
    cases hf : ((c0.put a).run ops).entries.find? (fun b => b.id = a.id) with
    | none =>
      have := List.find?_eq_none.1 hf x (by rw [hx]; simp)
      simp [hid] at this
    | some y => exact ⟨y, rfl⟩
  obtain ⟨y, hy⟩ := hsome
  rw [hy, C74_cache_latest cap _ _ y hy]

/-- With the capacity used up by others it is forgotten. -/
example : ((Cache.run ⟨2, []⟩ [.put ⟨1, 1, [], 0⟩, .put ⟨2, 1, [], 0⟩, .put ⟨3, 1, [], 0⟩]).get 1).1 =
    none := by decide +kernel

/-- The record that is looked up for a node is the one of its last session if that is still cached,
otherwise the one of the routing table.
Missing: that the newer of the two is taken, see `C74_find_enr_violated`. -/
theorem C74_find_enr_partial (cap : Nat) (ops : List CacheOp) (table : Id → Option NodeAddr) (id : Id) :
    (findEnr (Cache.run ⟨cap, []⟩ ops) table id).1 = lastPut ops id ∧ (lastPut ops id).isSome ∨
    (findEnr (Cache.run ⟨cap, []⟩ ops) table id).1 = table id ∧
      ((Cache.run ⟨cap, []⟩ ops).get id).1 = none := by
  unfold findEnr
  cases hg : (Cache.run ⟨cap, []⟩ ops).get id with
  | mk o c' =>
    cases o with
    | none => exact Or.inr ⟨rfl, rfl⟩
    | some a =>
      have := C74_cache_latest cap ops id a (by rw [hg])
      exact Or.inl ⟨this.symm, by rw [this]; rfl⟩

/-- It need not be the newest: the record of the last session is preferred to a newer one in the
table. -/
theorem C74_find_enr_violated : ∃ (ops : List CacheOp) (table : Id → Option NodeAddr) (id : Id)
    (a b : NodeAddr), (findEnr (Cache.run ⟨10, []⟩ ops) table id).1 = some a ∧ table id = some b ∧
      a.seq < b.seq :=
  ⟨[.put ⟨7, 1, [], 0⟩], fun _ => some ⟨7, 2, [], 0⟩, 7, ⟨7, 1, [], 0⟩, ⟨7, 2, [], 0⟩,
    by decide +kernel, rfl, by decide⟩

/-! ## uTP over requests -/

/-- A uTP packet that fits the buffer arrives whole, with the identity of its sender, and is answered
with an empty response.
Missing: longer packets, see `C74_utp_recv_violated`. -/
theorem C74_utp_recv_partial (size : Nat) (r : TalkReq) (h : r.body.length ≤ size) :
    recvFrom size (some r) = some (r.body, r.sender, []) := by
  simp only [recvFrom]
  rw [Nat.min_eq_right h, List.take_length]

/-- A longer one is cut without a notice. -/
theorem C74_utp_recv_violated : ∃ (size : Nat) (r : TalkReq) (b : Bytes),
    recvFrom size (some r) = some (b, r.sender, []) ∧ b ≠ r.body :=
  ⟨1, ⟨5, [], [1, 2]⟩, [1], by decide +kernel, by decide⟩

/-- Sent packets carry the identifier of uTP and the bytes given, to the record given or found; the
whole length is reported as sent even if no record is known and nothing is sent. -/
theorem C74_utp_send (net : Network) (c : Cache) (table : Id → Option NodeAddr) (buf : Bytes)
    (id : Id) (peer : Option NodeAddr) :
    (sendTo net c table buf id peer).1 = buf.length ∧
    (sendTo net c table buf id peer).2 =
      (match peer with | some a => some a | none => (findEnr c table id).1).map
        fun a => (a, Res.ok [0x75, 0x74, 0x70], buf) := by
  unfold sendTo
  have : sendProtocol net .utp = .ok [0x75, 0x74, 0x70] := by
    rw [sendProtocol_eq]; cases net <;> rfl
  rw [this]
  exact ⟨rfl, rfl⟩

theorem C74_utp_send_violated (net : Network) (buf : Bytes) (id : Id) :
    sendTo net ⟨10, []⟩ (fun _ => none) buf id none = (buf.length, none) := rfl

/-- Of two records of the same node one is kept, and none of them is newer; for records of different
nodes the code aborts. -/
theorem C74_consolidate (a b : NodeAddr) :
    (a.id ≠ b.id → consolidate a b = .panic) ∧
    (a.id = b.id → ∃ r, consolidate a b = .ok r ∧ (r = a ∨ r = b) ∧ a.seq ≤ r.seq ∧ b.seq ≤ r.seq) := by
  unfold consolidate
  constructor
  · intro h; rw [if_neg h]
  · intro h
    rw [if_pos h]
    by_cases hs : b.seq ≤ a.seq
    · exact ⟨a, by rw [if_pos hs], Or.inl rfl, Nat.le_refl _, hs⟩
    · exact ⟨b, by rw [if_neg hs], Or.inr rfl, by omega, Nat.le_refl _⟩

/-! ## A concrete node -/

namespace EventsExample

def reqState : TalkReq := ⟨5, [0x50, 0x0a], [1, 2, 3]⟩
def reqBeacon : TalkReq := ⟨6, [0x50, 0x0c], []⟩
def reqUtp : TalkReq := ⟨6, [0x75, 0x74, 0x70], [9]⟩
def ev : Event := ⟨.createTime 3, .beacon, .finalityUpdate, none⟩

def inputs : List Input :=
  [.talk reqState, .event ev, .lagged 2, .talk reqUtp, .talk reqBeacon, .gone .state, .talk reqState]

/-- The hypotheses of `C74_routing` are met, and what it says is not trivial: each party is handed
something else. -/
example : inbox (run (initNode .mainnet [.beacon, .state]) inputs) .state =
    some [.talk reqState, .event ev] ∧
    inbox (run (initNode .mainnet [.beacon, .state]) inputs) .beacon = some [.talk reqBeacon] ∧
    inbox (run (initNode .mainnet [.beacon, .state]) inputs) .utp = some [.talk reqUtp] ∧
    inbox (run (initNode .mainnet [.beacon, .state]) inputs) .legacyHistory = none := by
  decide +kernel

example : (whileThere .state inputs).filterMap (meantFor .mainnet .state) =
    [.talk reqState, .event ev] := by decide +kernel

example : ∀ p : Party, wireId .angelfood p.sub ≠ some reqState.protocol := by
  intro p; cases p <;> decide

example : ∃ bs, sendProtocol .mainnet Party.state.sub = .ok bs ∧ bs = [0x50, 0x0a] :=
  ⟨_, by decide +kernel, rfl⟩

example : ((1700000000123456789 : Int) < 2 ^ 63 * 1000000) ∧
    (Timestamp.ofTime 1700000000123456789).toMillis = some 1700000000123 := by decide +kernel

example : slotToTimestamp .mainnet 4700013 = 1663224179 ∧
    currentSlot .mainnet 1663224185000000000 = .ok 4700013 := by decide +kernel

/-- `C74_cache_kept` with room for two nodes, one other in between and an update. -/
example : (∀ op ∈ [CacheOp.put ⟨2, 1, [], 0⟩, .get 2, .put ⟨1, 9, [], 0⟩], op.id = (1 : Id) ∨ op.id ∈ [(2 : Id)]) ∧
    ((Cache.run ⟨2, []⟩ ([.put ⟨3, 1, [], 0⟩] ++ .put ⟨1, 1, [], 0⟩ ::
      [.put ⟨2, 1, [], 0⟩, .get 2, .put ⟨1, 9, [], 0⟩])).get 1).1 = some ⟨1, 9, [], 0⟩ := by
  decide +kernel

example : consolidate ⟨1, 4, [], 0⟩ ⟨1, 5, [], 0⟩ = .ok ⟨1, 5, [], 0⟩ := by decide +kernel

end EventsExample

end Verif.Props
