import Verif.Lemmas.Ping

/-! # C48: peer radius bookkeeping, C49: ping payloads -/

namespace Verif.Props
open Verif.Wire Verif.PingExt Verif.Ping Verif.Ssz

variable {E : Type}

/-! ## C49: payload encoding -/

/-- Every payload the node can build is decoded to the same payload by the receiver, and the 1100
byte limit of ping payloads never cuts it. -/
theorem C49_payload_roundtrip (utf8 : Bytes → Bool) (e : Ext) (h : e.Valid utf8) :
    decodeExt utf8 e.type e.payload = some e ∧ e.payload = e.ssz := by
  rw [Ext.payload_eq h]; exact ⟨decode_ssz h, rfl⟩

/-- Accepted payloads are canonical: one byte string for each payload, of the announced type, within
the limits of its lists. -/
theorem C49_payload_canonical (utf8 : Bytes → Bool) (t : ExtType) (bs : Bytes) (e : Ext)
    (h : decodeExt utf8 t bs = some e) : e.type = t ∧ e.Valid utf8 ∧ e.ssz = bs := decodeExt_spec h

/-- Client information survives printing and parsing when its fields do not contain the separators;
only the version may contain a dash. -/
theorem C49_client_info_roundtrip (c : ClientInfo)
    (hname : slash ∉ c.name) (hversion : slash ∉ c.version)
    (hcommit : slash ∉ c.commit ∧ dash ∉ c.commit) (hos : slash ∉ c.os ∧ dash ∉ c.os)
    (harch : slash ∉ c.arch ∧ dash ∉ c.arch) (hlang : slash ∉ c.language)
    (hlen : c.format.length ≤ 200) : ClientInfo.parse c.format = some c :=
  ClientInfo.parse_format ⟨hname, hversion, hcommit, hos, harch, hlang⟩ hlen

/-- Parsing accepts exactly the printed forms: the text of the parsed client is the text parsed. -/
theorem C49_client_info_canonical (s : Bytes) (c : ClientInfo) (h : ClientInfo.parse s = some c) :
    c.format = s := (ClientInfo.format_parse h).2.1

def sampleInfo : ClientInfo := ⟨[116], [118, 45, 97], [56], [108], [120], [114]⟩

example : ClientInfo.parse sampleInfo.format = some sampleInfo := by decide
-- more than three slashes, or a dash in the architecture, is refused
example : ClientInfo.parse ({ sampleInfo with name := [116, 47] } : ClientInfo).format = none := by decide
example : ClientInfo.parse ({ sampleInfo with arch := [120, 45] } : ClientInfo).format = none := by decide
example : (Ext.capabilities (some sampleInfo) 5 [.capabilities, .basicRadius, .error]).Valid
    (fun _ => true) := by
  refine ⟨?_, by decide, by decide, by decide, by decide⟩
  intro c hc; cases hc
  exact ⟨⟨by decide, by decide, by decide, by decide, by decide, by decide⟩, by decide, rfl⟩

/-! ## C48: bookkeeping -/

/-- Specification: the radius a payload announces. -/
def radiusOf : Ext → Option Nat
  | .capabilities _ r _ => some r
  | .basicRadius r => some r
  | .historyRadius r _ => some r
  | .error .. => none

/-- The message announces the radius `r` in a payload of a type this subnetwork supports. -/
def Reports (env : Env E) (m : PingBody) (r : Nat) : Prop :=
  ∃ e : Ext, e.Valid env.utf8 ∧ m.payloadType = e.type ∧ m.payload = e.ssz ∧
    e.type ∈ env.supported ∧ radiusOf e = some r

theorem stepNode_reports {env : Env E} {m : PingBody} {r : Nat} (h : Reports env m r) (n : Node E) :
    (stepNode env m n).radius = r := by
  obtain ⟨e, hv, ht, hp, hs, hr⟩ := h
  unfold stepNode
  rw [ht, hp, decode_ssz hv]
  simp only [if_pos hs]
  cases e with
  | capabilities i r' c =>
    cases hr
    simp only [handleExt, handleCapabilities]
    split
    · rfl
    · next hn => simp only [not_or, ne_eq, Decidable.not_not] at hn; exact hn.1
  | basicRadius r' =>
    cases hr
    simp only [handleExt, handleBasicRadius]
    split
    · rfl
    · next hn => simp only [ne_eq, Decidable.not_not] at hn; exact hn
  | historyRadius r' c =>
    cases hr
    simp only [handleExt, handleHistoryRadius]
    split
    · rfl
    · next hn => simp only [not_or, ne_eq, Decidable.not_not] at hn; exact hn.1
  | error c msg => cases hr

theorem stepNode_silent {env : Env E} {m : PingBody} (h : ∀ r, ¬ Reports env m r) (n : Node E) :
    stepNode env m n = n := by
  unfold stepNode
  cases hd : decodeExt env.utf8 m.payloadType m.payload with
  | none => rfl
  | some e =>
    simp only
    split
    · next hs =>
      obtain ⟨ht, hv, hp⟩ := decodeExt_spec hd
      cases e with
      | error c msg => rfl
      | capabilities i r c => exact absurd ⟨_, hv, ht.symm, hp.symm, hs, rfl⟩ (h r)
      | basicRadius r => exact absurd ⟨_, hv, ht.symm, hp.symm, hs, rfl⟩ (h r)
      | historyRadius r c => exact absurd ⟨_, hv, ht.symm, hp.symm, hs, rfl⟩ (h r)
    · rfl

/-- After any history of pings and pongs, the radius recorded for a known peer is the one of that
peer's latest report; without a report it is the one recorded before. -/
theorem C48_radius_is_latest_report (env : Env E) (s : State E) (hk : Keyed env s.table)
    (evs : List Event) (p : Id) (n : Node E) (hn : s.table p = some n) :
    ∃ n', (run env s evs).table p = some n' ∧ n'.enr = n.enr ∧
      ((∃ before e after r, evs = before ++ e :: after ∧ e.source = p ∧ Reports env e.body r ∧
          (∀ e' ∈ after, e'.source = p → ∀ r', ¬ Reports env e'.body r') ∧ n'.radius = r) ∨
       ((∀ e ∈ evs, e.source = p → ∀ r, ¬ Reports env e.body r) ∧ n' = n)) := by
  refine ⟨_, by rw [run_table env p evs s hk, hn]; rfl, ?_⟩
  have key : ∀ (evs : List Event) (n : Node E),
      let n' := evs.foldl (fun n e => if p = e.source then stepNode env e.body n else n) n
      n'.enr = n.enr ∧
      ((∃ before e after r, evs = before ++ e :: after ∧ e.source = p ∧ Reports env e.body r ∧
          (∀ e' ∈ after, e'.source = p → ∀ r', ¬ Reports env e'.body r') ∧ n'.radius = r) ∨
       ((∀ e ∈ evs, e.source = p → ∀ r, ¬ Reports env e.body r) ∧ n' = n)) := by
    intro evs
    induction evs with
    | nil => intro n; exact ⟨rfl, Or.inr ⟨(fun e he => by cases he), rfl⟩⟩
    | cons e evs ih =>
      intro n
      simp only [List.foldl_cons]
      obtain ⟨h1, h2⟩ := ih (if p = e.source then stepNode env e.body n else n)
      refine ⟨?_, ?_⟩
      · rw [h1]; split
        · exact stepNode_enr ..
        · rfl
      · rcases h2 with ⟨b, x, a, r, rfl, hx, hr, ha, hf⟩ | ⟨hsil, hf⟩
        · exact Or.inl ⟨e :: b, x, a, r, rfl, hx, hr, ha, hf⟩
        · by_cases hp : p = e.source
          · by_cases hrep : ∃ r, Reports env e.body r
            · obtain ⟨r, hr⟩ := hrep
              refine Or.inl ⟨[], e, evs, r, rfl, hp.symm, hr, hsil, ?_⟩
              rw [hf, if_pos hp]; exact stepNode_reports hr n
            · have hno : ∀ r, ¬ Reports env e.body r := fun r hr => hrep ⟨r, hr⟩
              refine Or.inr ⟨?_, ?_⟩
              · intro x hx hxs
                rcases List.mem_cons.mp hx with rfl | hx
                · exact hno
                · exact hsil x hx hxs
              · rw [hf, if_pos hp]; exact stepNode_silent hno n
          · refine Or.inr ⟨?_, by rw [hf, if_neg hp]⟩
            intro x hx hxs
            rcases List.mem_cons.mp hx with rfl | hx
            · exact absurd hxs.symm hp
            · exact hsil x hx hxs
  exact key evs n

/-- Pings and pongs never add a peer to the table. -/
theorem C48_unknown_not_added (env : Env E) (s : State E) (hk : Keyed env s.table)
    (evs : List Event) (p : Id) (hn : s.table p = none) : (run env s evs).table p = none := by
  rw [run_table env p evs s hk, hn]; rfl

/-- A message without a usable report (unsupported type, undecodable payload, error payload) leaves
the whole table as it was. -/
theorem C48_ignored (env : Env E) (s : State E) (hk : Keyed env s.table) (src : Id) (m : PingBody)
    (h : ∀ r, ¬ Reports env m r) : (process env s src m).table = s.table := by
  funext p
  rw [process_table env s src m hk]
  split
  · cases hp : s.table p with
    | none => rfl
    | some n => simp [stepNode_silent h n]
  · rfl

/-- A capabilities report is recorded with its list of extensions, and nothing else of the entry
changes. -/
theorem C48_capabilities_recorded (env : Env E) (s : State E) (hk : Keyed env s.table) (p : Id)
    (n : Node E) (hn : s.table p = some n) (m : PingBody) (i : Option ClientInfo) (r : Nat)
    (caps : List ExtType) (hv : (Ext.capabilities i r caps).Valid env.utf8)
    (ht : m.payloadType = .capabilities) (hp : m.payload = (Ext.capabilities i r caps).ssz)
    (hs : ExtType.capabilities ∈ env.supported) :
    (process env s p m).table p = some { n with radius := r, capabilities := some caps } := by
  rw [process_table env s p m hk, if_pos rfl, hn]
  simp only [Option.map_some, stepNode]
  have hd := decode_ssz hv
  simp only [Ext.type] at hd
  rw [ht, hp, hd]
  have hs' : (Ext.capabilities i r caps).type ∈ env.supported := hs
  simp only [if_pos hs', handleExt, handleCapabilities]
  split
  · rfl
  · next hno =>
    simp only [not_or, ne_eq, Decidable.not_not] at hno
    simp only [Option.getD_none, ← hno.1, ← hno.2]

/-- The sender's record is requested exactly when the sender is known and announces a newer one. -/
theorem C48_record_requested (env : Env E) (s : State E) (src : Id) (m : PingBody) :
    (process env s src m).requested =
      match s.table src with
      | some n => if env.seq n.enr < m.enrSeq.toNat then s.requested ++ [n.enr] else s.requested
      | none => s.requested := by
  unfold process; split <;> simp_all

/-- The answer to a ping: same type with the local radius for a radius type, an error for an
unsupported type or an error ping. With a supported list that names only known types (as the four
subnetworks do) it never panics. -/
theorem C48_answer (l : Local) (sup : List ExtType) (hsup : ∀ n, ExtType.nonSupported n ∉ sup)
    (m : PingBody) : ∃ reply e, handlePing l sup m = some reply ∧ reply.enrSeq = l.enrSeq ∧
      reply.payloadType = e.type ∧ reply.payload = e.payload ∧
      (m.payloadType ∉ sup → e = .error extensionNotSupported []) ∧
      (m.payloadType ∈ sup → m.payloadType = .error → e = .error systemError []) ∧
      (m.payloadType ∈ sup → m.payloadType ≠ .error →
        e.type = m.payloadType ∧ radiusOf e = some l.radius) := by
  unfold handlePing
  by_cases hm : m.payloadType ∈ sup
  · rw [if_neg (fun h => h hm)]
    cases ht : m.payloadType with
    | capabilities =>
      exact ⟨_, createCapabilities l sup, rfl, rfl, rfl, rfl, fun h => absurd (ht ▸ hm) h,
        (fun _ h => by cases h), fun _ _ => ⟨rfl, rfl⟩⟩
    | basicRadius =>
      exact ⟨_, .basicRadius l.radius, rfl, rfl, rfl, rfl, fun h => absurd (ht ▸ hm) h,
        (fun _ h => by cases h), fun _ _ => ⟨rfl, rfl⟩⟩
    | historyRadius =>
      exact ⟨_, .historyRadius l.radius 0, rfl, rfl, rfl, rfl, fun h => absurd (ht ▸ hm) h,
        (fun _ h => by cases h), fun _ _ => ⟨rfl, rfl⟩⟩
    | error =>
      exact ⟨_, .error systemError [], rfl, rfl, rfl, rfl, fun h => absurd (ht ▸ hm) h,
        fun _ _ => rfl, fun _ h => absurd rfl h⟩
    | nonSupported n => exact absurd (ht ▸ hm) (hsup n)
  · rw [if_pos hm]
    exact ⟨_, .error extensionNotSupported [], rfl, rfl, rfl, rfl, fun _ => rfl,
      fun h => absurd h hm, fun h => absurd h hm⟩

/-- End to end: when node A answers a ping of a type both support, and the asker knows A, the asker
records A's radius. -/
theorem C48_exchange (env : Env E) (s : State E) (hk : Keyed env s.table) (a : Id)
    (hknown : s.table a ≠ none) (l : Local) (hr : l.radius < 2 ^ 256) (sup : List ExtType)
    (hinfo : ∀ c, l.info = some c → c.Clean ∧ c.format.length ≤ 200 ∧ env.utf8 c.format = true)
    (hutf : env.utf8 [] = true) (hsup : ∀ t ∈ sup, ExtType.ofU16 t.toU16 = t)
    (m reply : PingBody) (ht : m.payloadType ∈ env.supported) (hne : m.payloadType ≠ .error)
    (hts : m.payloadType ∈ sup) (hreply : handlePing l sup m = some reply) :
    ∃ n, (process env s a reply).table a = some n ∧ n.radius = l.radius := by
  have hrep : Reports env reply l.radius := by
    unfold handlePing at hreply
    rw [if_neg (fun h => h hts)] at hreply
    cases hmt : m.payloadType with
    | capabilities =>
      rw [hmt] at hreply ht; cases hreply
      have hv : (createCapabilities l sup).Valid env.utf8 :=
        ⟨hinfo, fun _ => hutf, hr, by simp; omega, fun t htm => hsup t (List.mem_of_mem_take htm)⟩
      exact ⟨_, hv, rfl, Ext.payload_eq hv, ht, rfl⟩
    | basicRadius =>
      rw [hmt] at hreply ht; cases hreply
      have hv : (Ext.basicRadius l.radius).Valid env.utf8 := hr
      exact ⟨_, hv, rfl, Ext.payload_eq hv, ht, rfl⟩
    | historyRadius =>
      rw [hmt] at hreply ht; cases hreply
      have hv : (Ext.historyRadius l.radius 0).Valid env.utf8 := hr
      exact ⟨_, hv, rfl, Ext.payload_eq hv, ht, rfl⟩
    | error => exact absurd hmt hne
    | nonSupported n => rw [hmt] at hreply; cases hreply
  cases hs : s.table a with
  | none => exact absurd hs hknown
  | some n =>
    refine ⟨stepNode env reply n, ?_, stepNode_reports hrep n⟩
    rw [process_table env s a reply hk, if_pos rfl, hs]; rfl

/-- A ping to a peer uses a type the peer announced, or the capabilities type every client must
support, and it carries the local radius. -/
theorem C48_ping_type (l : Local) (sup base : List ExtType)
    (hbase : ∀ t ∈ base, t = .basicRadius ∨ t = .historyRadius) (n : Node E) :
    ∃ e : Ext, (pingNode l sup base n).payload = e.payload ∧
      (pingNode l sup base n).payloadType = e.type ∧ radiusOf e = some l.radius ∧
      (e.type = .capabilities ∨ ∃ caps, n.capabilities = some caps ∧ e.type ∈ caps ∧ e.type ∈ base) := by
  unfold pingNode
  cases hc : n.capabilities with
  | none => exact ⟨createCapabilities l sup, rfl, rfl, rfl, Or.inl rfl⟩
  | some caps =>
    simp only [Option.map_some]
    cases hl : latestBase base caps with
    | none => exact ⟨createCapabilities l sup, rfl, rfl, rfl, Or.inl rfl⟩
    | some t =>
      have hmem : t ∈ base := List.mem_of_find?_eq_some hl
      have hcap : t ∈ caps := by simpa using List.find?_some hl
      rcases hbase t hmem with rfl | rfl
      · exact ⟨.basicRadius l.radius, rfl, rfl, rfl, Or.inr ⟨caps, rfl, hcap, hmem⟩⟩
      · exact ⟨.historyRadius l.radius 0, rfl, rfl, rfl, Or.inr ⟨caps, rfl, hcap, hmem⟩⟩

/-- The subnetworks' lists meet the hypotheses of the two theorems above. -/
theorem C48_subnetwork_lists :
    (∀ sup ∈ [historySupported, beaconSupported, legacyHistorySupported, stateSupported],
      (∀ n, ExtType.nonSupported n ∉ sup) ∧ (∀ t ∈ sup, ExtType.ofU16 t.toU16 = t) ∧
      ExtType.capabilities ∈ sup) ∧
    (∀ base ∈ [beaconBase, stateBase, legacyHistoryBase],
      ∀ t ∈ base, t = .basicRadius ∨ t = .historyRadius) := by
  constructor
  · intro sup h
    simp only [List.mem_cons, List.not_mem_nil, or_false] at h
    rcases h with rfl | rfl | rfl | rfl <;>
      exact ⟨by intro n hn; simp [historySupported, beaconSupported, legacyHistorySupported,
        stateSupported] at hn, by decide, by decide⟩
  · decide

/-- A small world: records are numbers, the node id is the record, the sequence number 3. -/
def sampleEnv : Env Nat :=
  ⟨fun e => BitVec.ofNat 256 e, fun _ => 3, fun _ => true, beaconSupported⟩

def sampleState : State Nat :=
  ⟨fun p => if p = 7 then some ⟨7, 1, none, none⟩ else none, []⟩

def sampleBody : PingBody := ⟨4, .basicRadius, (Ext.basicRadius 12).payload⟩

example : Keyed sampleEnv sampleState.table := by
  intro p n h
  simp only [sampleState] at h
  split at h
  · next hp => cases h; subst hp; decide
  · cases h
example : Reports sampleEnv sampleBody 12 :=
  ⟨.basicRadius 12, by simp [Ext.Valid], rfl, by decide, by decide, rfl⟩
example : ((run sampleEnv sampleState [⟨7, sampleBody⟩, ⟨8, sampleBody⟩]).table 7).map (·.radius)
    = some 12 := by decide
example : (run sampleEnv sampleState [⟨7, sampleBody⟩]).requested = [7] := by decide
-- the history radius type is not supported here
example : ((run sampleEnv sampleState
    [⟨7, ⟨1, .historyRadius, (Ext.historyRadius 5 0).payload⟩⟩]).table 7).map (·.radius) = some 1 := by
  decide
example : handlePing ⟨1, 9, none⟩ beaconSupported ⟨0, .historyRadius, []⟩ =
    some ⟨1, .error, [0, 0, 6, 0, 0, 0]⟩ := by decide

end Verif.Props
