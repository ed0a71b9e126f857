import Verif.Lemmas.Routing

/-! # C61: the life of a peer in the routing table -/

namespace Verif.Props
open Verif.Routing Verif.Wire Verif.PingExt
open Verif.Ping (Node Env)

variable {E : Type}

/-- The library follows its contract in every event, and the events are consistent. -/
abbrev Regular (env : Env E) (localId : Id) (hist : List (Lib E × Event E)) : Prop :=
  ∀ x ∈ hist, Lawful env localId x.1 ∧ x.2.Consistent env

/-- Every entry is under the node id of its own record, and the local node is never in the table. -/
theorem C61_identity (env : Env E) (localId : Id) (lib : Lib E) (hl : Lawful env localId lib) (bootnodes : List E)
    (hist : List (Lib E × Event E)) (hh : Regular env localId hist) (k : Id) (e : Entry E)
    (he : (run env localId (boot env lib bootnodes) hist).table k = some e) :
    env.nodeId e.node.enr = k ∧ k ≠ localId :=
  run_keyed _ (boot_spec hl bootnodes).1 hist hh k e he

/-- A peer is held as connected only if it was active (it sent a request, answered one, or the user added it) and
no request to it has failed since. -/
theorem C61_connected_alive (env : Env E) (localId : Id) (lib : Lib E) (hl : Lawful env localId lib)
    (bootnodes : List E) (hist : List (Lib E × Event E)) (hh : Regular env localId hist) (k : Id) (e : Entry E)
    (he : (run env localId (boot env lib bootnodes) hist).table k = some e) (hc : e.status.connected = true) :
    ∃ after x before, hist = after ++ x :: before ∧ Active env k x.2 ∧ ∀ y ∈ after, ¬ Fails env k y.2 := by
  induction hist generalizing e with
  | nil =>
    have := ((boot_spec hl bootnodes).2.2.2 k e he).1
    rw [this] at hc; cases hc
  | cons x hist ih =>
    obtain ⟨lib', ev⟩ := x
    have hh' : Regular env localId hist := fun y hy => hh y (.tail _ hy)
    obtain ⟨hl', hcons⟩ := hh _ (.head _)
    have hk := run_keyed _ (boot_spec hl bootnodes).1 hist hh'
    have hp := step_path hl' (run env localId (boot env lib bootnodes) hist) ev hk hcons
    rcases hp.connected he hc with ha | ⟨e0, h0, hc0⟩
    · exact ⟨[], (lib', ev), hist, rfl, ha, by simp⟩
    · obtain ⟨after, y, before, h1, h2, h3⟩ := ih hh' e0 h0 hc0
      refine ⟨(lib', ev) :: after, y, before, by rw [h1]; rfl, h2, fun z hz => ?_⟩
      rcases List.mem_cons.mp hz with rfl | hz
      · intro hf
        cases ev with
        | failure destination =>
          simp only [Fails] at hf
          subst hf
          have := failure_disconnects hl' (run env localId (boot env lib bootnodes) hist) _ e he
          rw [this] at hc; cases hc
        | _ => exact hf
      · exact h3 z hz

/-- Conversely a peer that sends a request or answers one, or that the user adds, is connected afterwards if it is
in the table at all. Missing: peers whose entry was pending at some time, which may stay disconnected, and
responses that list the peer's own record among the discovered ones. -/
theorem C61_active_connected_partial (env : Env E) (localId : Id) (lib : Lib E) (hl : Lawful env localId lib)
    (bootnodes : List E) (lib' : Lib E) (ev : Event E) (hist : List (Lib E × Event E))
    (hh : Regular env localId ((lib', ev) :: hist)) (k : Id) (ha : Active env k ev)
    (hn : NeverPending (run env localId (boot env lib bootnodes) ((lib', ev) :: hist)) k)
    (hr : ∀ source enrs, ev = .response source (.records enrs) → ∀ r ∈ enrs, env.nodeId r ≠ k) (e : Entry E)
    (he : (run env localId (boot env lib bootnodes) ((lib', ev) :: hist)).table k = some e) :
    e.status.connected = true := by
  have hh' : Regular env localId hist := fun y hy => hh y (.tail _ hy)
  obtain ⟨hl', hcons⟩ := hh _ (.head _)
  have hk := run_keyed _ (boot_spec hl bootnodes).1 hist hh'
  simp only [run] at hn he
  generalize run env localId (boot env lib bootnodes) hist = s at hn he hk
  have answer : ∀ source : E, env.nodeId source = k → NeverPending (processAnswer env lib' s source) k → ∀ e,
      (processAnswer env lib' s source).table k = some e → e.status.connected = true := by
    intro source hsrc hn e he
    subst hsrc
    have h1 := entry_fst lib' s (env.nodeId source)
    have hkey := (entry_path (ev := .read 0) hl' s (env.nodeId source)).keyed hk
    have hp2 := fun e1 s1 (hu : entry lib' s (env.nodeId source) = (some e1, s1))
        (hid : env.nodeId e1.node.enr = env.nodeId source) (h : s1.table (env.nodeId source) = some e1) =>
      connectNode_path (ev := .response source .other) hl' s1 e1.node e1.status.incoming
        (by rw [hid]; rfl) (.inr ⟨e1, by rw [hid]; exact h, rfl⟩)
    unfold processAnswer at hn he
    split at he
    · next e1 s1 hu =>
      rw [hu] at h1 hn hkey
      simp only at h1 hn hkey
      have hid := (hkey _ e1 h1.symm).1
      split at he
      · exact stayConnected_connected hl' s1 _ e he
      · next hd =>
        rw [if_neg hd] at hn
        have hn1 := (hp2 e1 s1 hu hid h1.symm).neverPending hn
        refine connectNode_connected hl' s1 e1.node e1.status.incoming (fun e2 h2 => ?_) e (by rw [hid]; exact he)
        rw [hid] at h2
        exact hn1.now h2
    · next s1 hu =>
      rw [hu] at h1 hn
      simp only at h1 hn
      refine connectNode_connected hl' s1 (newNode source) false (fun e2 h2 => ?_) e he
      simp only [newNode] at h2
      rw [← h1] at h2; cases h2
  cases ev with
  | request source cached ping =>
    have hsrc : source = k := ha
    subst hsrc
    have hcached : ∀ enr, cached = some enr → env.nodeId enr = source := by
      intro enr he; subst he; exact hcons
    have conn : ∀ e, (registerActivity env lib' s source cached).table source = some e → e.status.connected = true := by
      intro e he
      have h1 := entry_fst lib' s source
      unfold registerActivity at he
      split at he
      · next s1 hu => exact stayConnected_connected hl' s1 _ e he
      · next s1 hu =>
        rw [hu] at h1
        simp only at h1
        cases cached with
        | none => simp only at he; rw [← h1] at he; cases he
        | some enr =>
          have hid := hcached enr rfl
          subst hid
          refine connectNode_connected hl' s1 (newNode enr) true (fun e2 h2 => ?_) e he
          simp only [newNode] at h2
          rw [← h1] at h2; cases h2
    cases ping with
    | none => exact conn e he
    | some m =>
      obtain ⟨e0, h0, h2⟩ := processPing_status hl' _ source source m e he
      rw [h2]; exact conn e0 h0
  | response source body =>
    have hsrc : env.nodeId source = k := ha
    have hp := processAnswer_path (ev := .response source .other) hl' s source hk rfl
    cases body with
    | pong m =>
      have hp2 := processPing_path (ev := .response source (.pong m)) hl' (processAnswer env lib' s source)
        (env.nodeId source) m (hp.keyed hk) fun r hr => ⟨rfl, hr⟩
      obtain ⟨e0, h0, h2⟩ := processPing_status hl' _ (env.nodeId source) k m e he
      rw [h2]; exact answer source hsrc (hp2.neverPending hn) e0 h0
    | records enrs =>
      have hp2 := processDiscovered_path (ev := .read 0) hl' (processAnswer env lib' s source) enrs
      have he' : (processDiscovered env lib' localId (processAnswer env lib' s source) enrs).table k = some e := he
      rw [processDiscovered_table] at he'
      obtain ⟨e0, h0, h2⟩ := discover_status hl' k _ _
        (fun r hrm => hr source enrs rfl r (List.mem_filter.mp hrm).1) e he'
      rw [h2]; exact answer source hsrc (hp2.neverPending hn) e0 h0
    | other => exact answer source hsrc hn e he
  | addEnr enr =>
    have hsrc : env.nodeId enr = k := ha
    subst hsrc
    exact insert_connected hl' s (newNode enr) true (fun e2 h2 => hn.before (s := s) rfl h2) e he
  | failure destination => exact absurd ha (by simp [Active])
  | expired j => exact absurd ha (by simp [Active])
  | deleteEnr j => exact absurd ha (by simp [Active])
  | read j => exact absurd ha (by simp [Active])

/-- The radius of an entry is the maximum, as for nodes that announced nothing since they entered the table, or the
one the peer announced last. -/
theorem C61_radius (env : Env E) (localId : Id) (lib : Lib E) (hl : Lawful env localId lib) (bootnodes : List E)
    (hist : List (Lib E × Event E)) (hh : Regular env localId hist) (k : Id) (e : Entry E)
    (he : (run env localId (boot env lib bootnodes) hist).table k = some e) :
    e.node.radius = 2 ^ 256 - 1 ∨
    ∃ after x before, hist = after ++ x :: before ∧ Announces env k e.node.radius x.2 ∧
      ∀ y ∈ after, ∀ r, ¬ Announces env k r y.2 := by
  induction hist generalizing e with
  | nil => exact .inl ((boot_spec hl bootnodes).2.2.2 k e he).2
  | cons x hist ih =>
    obtain ⟨lib', ev⟩ := x
    have hh' : Regular env localId hist := fun y hy => hh y (.tail _ hy)
    obtain ⟨hl', hcons⟩ := hh _ (.head _)
    have hk := run_keyed _ (boot_spec hl bootnodes).1 hist hh'
    have hp := step_path hl' (run env localId (boot env lib bootnodes) hist) ev hk hcons
    by_cases ha : ∃ r, Announces env k r ev
    · obtain ⟨r, ha⟩ := ha
      refine .inr ⟨[], (lib', ev), hist, rfl, ?_, by simp⟩
      have hr : e.node.radius = r := by
        cases ev with
        | request source cached ping =>
          cases ping with
          | none => exact absurd ha (by simp [Announces])
          | some m =>
            obtain ⟨h1, h2⟩ := ha
            subst h1
            have hcached : ∀ enr, cached = some enr → env.nodeId enr = source := by
              intro enr he; subst he; exact hcons
            have hp2 := registerActivity_path (ev := .request source cached none) hl'
              (run env localId (boot env lib bootnodes) hist) source cached hcached rfl
            exact processPing_radius hl' _ source m (hp2.keyed hk) h2 e he
        | response source body =>
          cases body with
          | pong m =>
            obtain ⟨h1, h2⟩ := ha
            subst h1
            have hp2 := processAnswer_path (ev := .response source .other) hl'
              (run env localId (boot env lib bootnodes) hist) source hk rfl
            exact processPing_radius hl' _ _ m (hp2.keyed hk) h2 e he
          | records enrs => exact absurd ha (by simp [Announces])
          | other => exact absurd ha (by simp [Announces])
        | _ => exact absurd ha (by simp [Announces])
      rw [hr]; exact ha
    · have hna : ∀ r, ¬ Announces env k r ev := fun r h => ha ⟨r, h⟩
      rcases hp.radius he with h | h | ⟨e0, h0, h⟩
      · exact .inl h
      · exact absurd h (hna _)
      · rcases ih hh' e0 h0 with h1 | ⟨after, y, before, h1, h2, h3⟩
        · exact .inl (by rw [← h]; exact h1)
        · refine .inr ⟨(lib', ev) :: after, y, before, by rw [h1]; rfl, by rw [← h]; exact h2, fun z hz => ?_⟩
          rcases List.mem_cons.mp hz with rfl | hz
          · exact hna
          · exact h3 z hz

/-- While a peer stays in the table its record is only replaced by one with a higher sequence number, unless the
user gave the new record. The tables of a history are `table :: past`, the newest first; every change of any
function is in between two of them. -/
theorem C61_records (env : Env E) (localId : Id) (lib : Lib E) (hl : Lawful env localId lib) (bootnodes : List E)
    (hist : List (Lib E × Event E)) (hh : Regular env localId hist) (later earlier : List (Table E)) (t t' : Table E)
    (ht : (run env localId (boot env lib bootnodes) hist).table :: (run env localId (boot env lib bootnodes) hist).past =
      later ++ t' :: t :: earlier)
    (k : Id) (e e' : Entry E) (he : t k = some e) (he' : t' k = some e') :
    e'.node.enr = e.node.enr ∨ env.seq e.node.enr < env.seq e'.node.enr ∨
      ∃ x ∈ hist, x.2 = .addEnr e'.node.enr := by
  have key : Chain (Fresher env fun enr => ∃ x ∈ hist, x.2 = .addEnr enr)
      (run env localId (boot env lib bootnodes) hist).table (run env localId (boot env lib bootnodes) hist).past := by
    clear ht
    induction hist with
    | nil =>
      have : (run env localId (boot env lib bootnodes) []).past = [] := (boot_spec hl bootnodes).2.1
      rw [this]; exact .nil _
    | cons x hist ih =>
      obtain ⟨lib', ev⟩ := x
      have hh' : Regular env localId hist := fun y hy => hh y (.tail _ hy)
      obtain ⟨hl', hcons⟩ := hh _ (.head _)
      have hk := run_keyed _ (boot_spec hl bootnodes).1 hist hh'
      have hp := step_path hl' (run env localId (boot env lib bootnodes) hist) ev hk hcons
      refine hp.chain (fun enr he => ⟨_, .head _, he⟩) ((ih hh').mono fun a b hab k e e' h h' => ?_)
      rcases hab k e e' h h' with h1 | h1 | ⟨x, hx, h1⟩
      · exact .inl h1
      · exact .inr (.inl h1)
      · exact .inr (.inr ⟨x, .tail _ hx, h1⟩)
  exact key.split later earlier t t' ht k e e' he he'

/-- The tables of a history begin with the one of the start. -/
theorem C61_tables (env : Env E) (localId : Id) (lib : Lib E) (hl : Lawful env localId lib) (bootnodes : List E)
    (hist : List (Lib E × Event E)) (hh : Regular env localId hist) :
    ∃ later, (run env localId (boot env lib bootnodes) hist).table :: (run env localId (boot env lib bootnodes) hist).past =
      later ++ [(boot env lib bootnodes).table] := by
  induction hist with
  | nil =>
    have : (run env localId (boot env lib bootnodes) []).past = [] := (boot_spec hl bootnodes).2.1
    exact ⟨[], by rw [this]; rfl⟩
  | cons x hist ih =>
    obtain ⟨lib', ev⟩ := x
    have hh' : Regular env localId hist := fun y hy => hh y (.tail _ hy)
    obtain ⟨hl', hcons⟩ := hh _ (.head _)
    have hk := run_keyed _ (boot_spec hl bootnodes).1 hist hh'
    have hp := step_path hl' (run env localId (boot env lib bootnodes) hist) ev hk hcons
    obtain ⟨later, h⟩ := ih hh'
    simp only [run]
    generalize hs2 : step env localId lib' (run env localId (boot env lib bootnodes) hist) ev = s2 at hp
    clear hs2
    induction hp with
    | refl s' ht hp => exact ⟨later, by rw [ht, hp]; exact h⟩
    | step s1 s2 _ _ hp ih2 =>
      obtain ⟨l2, h2⟩ := ih2
      exact ⟨s2.table :: l2, by rw [hp, h2]; rfl⟩

/-- Every peer in the table is in the ping queue, so that it is pinged again when its time comes. Missing: peers a
request to which failed once (also when they are connected again since), peers whose entry was pending at some
time, and peers added by the user; for these it is false. -/
theorem C61_pinged_partial (env : Env E) (localId : Id) (lib : Lib E) (hl : Lawful env localId lib) (bootnodes : List E)
    (hist : List (Lib E × Event E)) (hh : Regular env localId hist) (k : Id)
    (hf : ∀ x ∈ hist, ¬ Fails env k x.2) (ha : ∀ x ∈ hist, ∀ enr, x.2 = .addEnr enr → env.nodeId enr ≠ k)
    (hn : NeverPending (run env localId (boot env lib bootnodes) hist) k) (e : Entry E)
    (he : (run env localId (boot env lib bootnodes) hist).table k = some e) :
    k ∈ (run env localId (boot env lib bootnodes) hist).queue := by
  suffices h : Queued (run env localId (boot env lib bootnodes) hist) k from h e he
  clear he
  induction hist with
  | nil => exact (boot_spec hl bootnodes).2.2.1 k
  | cons x hist ih =>
    obtain ⟨lib', ev⟩ := x
    have hh' : Regular env localId hist := fun y hy => hh y (.tail _ hy)
    obtain ⟨hl', hcons⟩ := hh _ (.head _)
    have hk := run_keyed _ (boot_spec hl bootnodes).1 hist hh'
    have hp := step_path hl' (run env localId (boot env lib bootnodes) hist) ev hk hcons
    exact step_queued hl' _ ev k hk hcons (hf _ (.head _)) (ha _ (.head _))
      (ih hh' (fun y hy => hf y (.tail _ hy)) (fun y hy => ha y (.tail _ hy)) (hp.neverPending hn)) hn

/-- When the time of a queued peer comes and it is present, its record is pinged and it stays in the queue. -/
theorem C61_ping_tick (env : Env E) (localId : Id) (lib : Lib E) (s : State E) (k : Id) (hq : k ∈ s.queue) (e : Entry E)
    (he : lib.settle s.table k k = some e) (hp : e.pending = false) :
    (step env localId lib s (.expired k)).sent = .ping e.node.enr :: s.sent ∧
    k ∈ (step env localId lib s (.expired k)).queue := by
  have h1 : entry lib (s.dequeue k) k = (some e, (s.dequeue k).put (lib.settle s.table k)) := by
    unfold entry; simp only [State.dequeue]; rw [he]
  have h2 : step env localId lib s (.expired k) =
      (((s.dequeue k).put (lib.settle s.table k)).send (.ping e.node.enr)).enqueue k := by
    simp only [step, pingNext]
    rw [if_pos hq, h1]
    simp only
    rw [if_neg (by rw [hp]; simp)]
  rw [h2]
  exact ⟨rfl, .head _⟩

/-! ## Examples: a table that never refuses -/

namespace RoutingExample

/-- Records: node id and sequence number. -/
abbrev Rec := Nat × Nat
def env : Env Rec := ⟨fun r => BitVec.ofNat 256 r.1, fun r => r.2, fun _ => true, [.capabilities, .basicRadius, .error]⟩

def set (t : Table Rec) (k : Id) (e : Option (Entry Rec)) : Table Rec := fun j => if j = k then e else t j

/-- A table with room for all; with `wait` new nodes are pending until the next access, as with a full bucket. -/
def libW (wait : Bool) : Lib Rec where
  settle t _ := fun j => (t j).map fun e => { e with pending := false }
  insert t n st :=
    if env.nodeId n.enr = 0 then (.failed, set t (env.nodeId n.enr) none) else
    match t (env.nodeId n.enr) with
    | none =>
      if wait then (.pending 1, set t (env.nodeId n.enr) (some ⟨n, st, true⟩))
      else (.inserted, set t (env.nodeId n.enr) (some ⟨n, st, false⟩))
    | some e => (.updated (!e.status.connected && st.connected), set t (env.nodeId n.enr) (some ⟨n, st, false⟩))
  update t n :=
    match t (env.nodeId n.enr) with
    | none => (true, t)
    | some e => (false, set t (env.nodeId n.enr) (some ⟨n, e.status, e.pending⟩))
  updateStatus t k c :=
    match t k with
    | none => (true, t)
    | some e => (false, set t k (some ⟨e.node, ⟨c, e.status.incoming⟩, e.pending⟩))
  remove t k := set t k none

def lib : Lib Rec := libW false

theorem set_same (t : Table Rec) (k : Id) (e : Option (Entry Rec)) : set t k e k = e := by simp [set]

theorem set_other (t : Table Rec) (k j : Id) (e : Option (Entry Rec)) (h : j ≠ k) : set t k e j = t j := by simp [set, h]

theorem lawfulW (wait : Bool) : Lawful env 0 (libW wait) where
  settle t k j := by
    simp only [libW]
    cases t j with
    | none => exact .same _
    | some e => exact .applied e
  insertOthers t n st j h := by
    have : ((libW wait).insert t n st).2 j = t j := by
      simp only [libW]
      split
      · exact set_other _ _ _ _ h
      · split
        · split <;> exact set_other _ _ _ _ h
        · exact set_other _ _ _ _ h
    rw [this]; exact .same _
  insertHere t n st := by
    simp only [libW]
    split
    · simp only [set_same]; exact .removed _
    · split
      · next h =>
        split
        · simp only [set_same, h]; exact .pending _ _ (by simp)
        · simp only [set_same, h]; exact .inserted _ (by simp)
      · next e h => simp only [set_same, h]; exact .updated e
  insertSelf t n st h := by simp only [libW]; rw [if_pos h]
  updateOthers t n j h := by
    have : ((libW wait).update t n).2 j = t j := by
      simp only [libW]
      split
      · rfl
      · exact set_other _ _ _ _ h
    rw [this]; exact .same _
  updateDone t n h := by
    simp only [libW] at h ⊢
    split at h
    · cases h
    · next e he => rw [he]; exact ⟨e, e.pending, rfl, set_same _ _ _, id⟩
  updateFailed t n h := by
    simp only [libW] at h ⊢
    split at h
    · next he => rw [he]; exact ⟨he, by simp⟩
    · cases h
  statusOthers t k c j h := by
    have : ((libW wait).updateStatus t k c).2 j = t j := by
      simp only [libW]
      split
      · rfl
      · exact set_other _ _ _ _ h
    rw [this]; exact .same _
  statusDone t k c h := by
    simp only [libW] at h ⊢
    split at h
    · cases h
    · next e he => rw [he]; exact ⟨e, e.pending, rfl, set_same _ _ _, id⟩
  statusFailed t k c h := by
    simp only [libW] at h ⊢
    split at h
    · next he => exact he
    · cases h
  removeOthers t k j h := by
    have : (libW wait).remove t k j = t j := set_other _ _ _ _ h
    rw [this]; exact .same _
  removeHere t k := .inl (set_same _ _ _)

theorem lawful : Lawful env 0 lib := lawfulW false

/-- The history of `events`, the last first. -/
def hist (events : List (Event Rec)) : List (Lib Rec × Event Rec) := events.map fun e => (lib, e)

theorem regular {events : List (Event Rec)} (h : ∀ e ∈ events, e.Consistent env) : Regular env 0 (hist events) := by
  intro x hx
  obtain ⟨e, he, rfl⟩ := List.mem_map.mp hx
  exact ⟨lawful, h e he⟩

def after (events : List (Event Rec)) : State Rec := run env 0 (boot env lib [(1, 1)]) (hist events)

def announce (r : Nat) : PingBody := ⟨1, .basicRadius, (Ext.basicRadius r).payload⟩

/-- A bootnode announces a radius, its record is then found with a newer sequence number, it fails, another peer
sends a ping. -/
def events : List (Event Rec) :=
  [.request 2 (some (2, 1)) (some (announce 7)), .failure (1, 5), .response (3, 1) (.records [(1, 5), (4, 1), (0, 1)]),
   .response (1, 1) (.pong (announce 9))]

def view (s : State Rec) (k : Id) : Option (Rec × Nat × Bool) :=
  (s.table k).map fun e => (e.node.enr, e.node.radius, e.status.connected)

set_option maxRecDepth 4000 in
example : (∀ e ∈ events, e.Consistent env) ∧
    view (after events) 1 = some ((1, 5), 9, false) ∧ view (after events) 2 = some ((2, 1), 7, true) ∧
    view (after events) 3 = some ((3, 1), 2 ^ 256 - 1, true) ∧ view (after events) 4 = some ((4, 1), 2 ^ 256 - 1, false) ∧
    view (after events) 0 = none ∧ (after events).queue = [2, 4, 3] := by
  refine ⟨?_, by decide +kernel, by decide +kernel, by decide +kernel, by decide +kernel, by decide +kernel,
    by decide +kernel⟩
  intro e he
  simp only [events, List.mem_cons, List.not_mem_nil, or_false] at he
  rcases he with rfl | rfl | rfl | rfl <;> first | exact rfl | trivial

end RoutingExample

open RoutingExample in
/-- The code violates the property without the restrictions: a peer that answered, to which then a request failed,
and which then sends requests, is present and connected but not in the ping queue, however many requests it sends
and however long this goes on: it is never pinged again. -/
theorem C61_unpinged_violated (n : Nat) :
    let s := after (List.replicate (n + 1) (.request 1 none none) ++ [.failure (1, 1), .response (1, 1) .other])
    (∃ e, s.table 1 = some e ∧ e.status.connected = true ∧ e.pending = false) ∧ (1 : Id) ∉ s.queue := by
  induction n with
  | zero =>
    refine ⟨⟨⟨newNode (1, 1), ⟨true, false⟩, false⟩, ?_, rfl, rfl⟩, by decide +kernel⟩
    rfl
  | succ n ih =>
    simp only at ih ⊢
    obtain ⟨⟨e, h1, h2, h3⟩, h4⟩ := ih
    have hs : after (List.replicate (n + 1 + 1) (.request 1 none none) ++ [.failure (1, 1), .response (1, 1) .other]) =
        registerActivity env lib (after (List.replicate (n + 1) (.request 1 none none) ++
          [.failure (1, 1), .response (1, 1) .other])) 1 none := rfl
    rw [hs]
    generalize after (List.replicate (n + 1) (.request 1 none none) ++ [.failure (1, 1), .response (1, 1) .other]) = s at h1 h4
    have h5 : registerActivity env lib s 1 none =
        (s.put (lib.settle s.table 1)).put (set (lib.settle s.table 1) 1 (some ⟨e.node, ⟨true, e.status.incoming⟩, false⟩)) := by
      simp only [registerActivity, entry, lib, libW, stayConnected, updateState, State.put, h1, Option.map]
    rw [h5]
    exact ⟨⟨⟨e.node, ⟨true, e.status.incoming⟩, false⟩, by simp only [State.put, set_same], rfl, rfl⟩, h4⟩

open RoutingExample in
/-- So is a peer that the user added: it is connected and never pinged. -/
theorem C61_added_unpinged_violated :
    (∃ e, (after [.addEnr (5, 1)]).table 5 = some e ∧ e.status.connected = true ∧ e.pending = false) ∧
    (5 : Id) ∉ (after [.addEnr (5, 1)]).queue :=
  ⟨⟨⟨newNode (5, 1), ⟨true, true⟩, false⟩, rfl, rfl, rfl⟩, by decide +kernel⟩

open RoutingExample in
/-- So is a peer that was pending first, for a full bucket, and then took the place of another node. -/
theorem C61_pending_unpinged_violated :
    let s := run env 0 (boot env lib [(1, 1)]) [(libW true, .response (2, 1) .other)]
    Lawful env 0 (libW true) ∧
    (∃ e, s.table 2 = some e ∧ e.status.connected = true ∧ e.pending = false) ∧ (2 : Id) ∉ s.queue :=
  ⟨lawfulW true, ⟨⟨newNode (2, 1), ⟨true, false⟩, false⟩, rfl, rfl, rfl⟩, by decide +kernel⟩

end Verif.Props
