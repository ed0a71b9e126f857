import Verif.Lemmas.OwnRecord

/-! # C89: the node's own record -/

namespace Verif.Props
open Verif Verif.OwnRecord Verif.Props.OwnRecordSpec
open Verif.E2store (Res)

/-- Where the address in the record comes from. (1) The address given by the user is advertised as it is when UPnP is off,
not needed (the address is one of the own interfaces) or finds nothing. (2) Without it, that is what STUN reports. (3) A
gateway that maps the port is advertised with the port the node listens on. (4) Without all that the record has no
address. (5) When the user gives an address and the gateway reports another one, the node does not start. -/
theorem C89_address (c : Config) (w : World) (n : Node) :
    (∀ s, c.noStun = false → c.external = some s →
      (c.noUpnp = true ∨ (∃ l, w.interfaces = some l ∧ s.ip ∈ l) ∨ ∀ e, ¬ Found w e) →
      (new c w).2 = .ok n → n.record.ip = some s.ip ∧ n.record.udp4 = s.port) ∧
    (∀ s, c.noStun = false → c.external = none → w.stun = some s →
      (c.noUpnp = true ∨ (∃ l, w.interfaces = some l ∧ s.ip ∈ l) ∨ ∀ e, ¬ Found w e) →
      (new c w).2 = .ok n → n.record.ip = some s.ip ∧ n.record.udp4 = s.port) ∧
    (∀ e, c.noUpnp = false → Found w e →
      (c.noStun = true ∨ (∀ s, c.external = some s ∨ (c.external = none ∧ w.stun = some s) →
        ∀ l, w.interfaces = some l → s.ip ∉ l)) →
      (new c w).2 = .ok n → n.record.ip = some e ∧ n.record.udp4 = c.listenPort) ∧
    ((c.noStun = true ∨ (c.external = none ∧ w.stun = none)) → (c.noUpnp = true ∨ ∀ e, ¬ Found w e) →
      (new c w).2 = .ok n → n.record.ip = none ∧ n.record.udp4 = c.listenPort) ∧
    (∀ s e, c.noStun = false → c.external = some s → c.noUpnp = false → Found w e → s.ip ≠ e →
      (∀ l, w.interfaces = some l → s.ip ∉ l) → (new c w).2 = .err) := by
  have hrec : (new c w).2 = .ok n → (ownAddress c w).2 = some (n.record.ip, n.record.udp4) := by
    intro h
    unfold new at h
    cases ho : ownAddress c w with
    | mk acts o =>
    rw [ho] at h
    cases o with
    | none => simp at h
    | some a =>
      obtain ⟨ip, port⟩ := a
      simp only [] at h
      split at h
      · simp at h
      · split at h
        · simp at h
        · split at h
          · simp at h
          · split at h
            · simp at h
            · simp only [Res.ok.injEq] at h; subst h; rfl
  have hloc : ∀ ip : Ip, isLocal w (some ip) = true ↔ ∃ l, w.interfaces = some l ∧ ip ∈ l := by
    intro ip
    unfold isLocal
    cases w.interfaces with
    | none => simp
    | some l => simp
  have hnone : (∀ e, ¬ Found w e) → (upnpForExternal w c.listenPort).2 = none := by
    intro h
    cases hu : (upnpForExternal w c.listenPort).2 with
    | none => rfl
    | some s => exact absurd ((found_iff w _ s).mp hu).2 (h _)
  have hsome : ∀ e, Found w e → (upnpForExternal w c.listenPort).2 = some ⟨e, c.listenPort⟩ := fun e h =>
    (found_iff w _ ⟨e, c.listenPort⟩).mpr ⟨rfl, h⟩
  -- the address when UPnP is not used
  have hskip : ∀ acts ip port, knownAddress c w = (acts, ip, port) →
      (c.noUpnp = true ∨ isLocal w ip = true ∨ (upnpForExternal w c.listenPort).2 = none) →
      (ownAddress c w).2 = some (ip, port) := by
    intro acts ip port hk h
    unfold ownAddress
    rw [hk]
    simp only []
    split
    · next hc =>
      simp only [Bool.and_eq_true, Bool.not_eq_true'] at hc
      rcases h with h | h | h
      · simp [h] at hc
      · simp [h] at hc
      · cases hu : upnpForExternal w c.listenPort with
        | mk more o => rw [hu] at h; simp only [] at h; subst h; rfl
    · rfl
  have hgot : ∀ acts ip port e, knownAddress c w = (acts, ip, port) → c.noUpnp = false → isLocal w ip = false →
      Found w e → (ownAddress c w).2 = (if ip.isSome = true ∧ ip ≠ some e ∧ c.external.isSome = true then none
        else some (some e, c.listenPort)) := by
    intro acts ip port e hk h1 h2 h3
    unfold ownAddress
    rw [hk]
    simp only [h1, h2, Bool.not_false, Bool.and_self, if_true]
    have := hsome e h3
    cases hu : upnpForExternal w c.listenPort with
    | mk more o =>
      rw [hu] at this; simp only [] at this; subst this
      cases ip with
      | none => simp
      | some known =>
        by_cases hkn : known = e
        · simp [hkn]
        · cases hx : c.external.isSome <;> simp [hkn]
  refine ⟨?_, ?_, ?_, ?_, ?_⟩
  · intro s h1 h2 h3 h
    have hk : knownAddress c w = ([], some s.ip, s.port) := by simp [knownAddress, h1, h2]
    have := hskip _ _ _ hk (by
      rcases h3 with h3 | h3 | h3
      · exact .inl h3
      · exact .inr (.inl ((hloc _).mpr h3))
      · exact .inr (.inr (hnone h3)))
    rw [hrec h] at this
    simp only [Option.some.injEq, Prod.mk.injEq] at this
    exact this
  · intro s h1 h2 hs h3 h
    have hk : knownAddress c w = ([.askStun], some s.ip, s.port) := by
      simp [knownAddress, h1, h2, stunForExternal, hs]
    have := hskip _ _ _ hk (by
      rcases h3 with h3 | h3 | h3
      · exact .inl h3
      · exact .inr (.inl ((hloc _).mpr h3))
      · exact .inr (.inr (hnone h3)))
    rw [hrec h] at this
    simp only [Option.some.injEq, Prod.mk.injEq] at this
    exact this
  · intro e h1 h2 h3 h
    cases hk : knownAddress c w with
    | mk acts rest =>
    obtain ⟨ip, port⟩ := rest
    have hnl : isLocal w ip = false := by
      cases ip with
      | none => rfl
      | some known =>
        cases hl : isLocal w (some known) with
        | false => rfl
        | true =>
          obtain ⟨l, hl1, hl2⟩ := (hloc _).mp hl
          unfold knownAddress at hk
          cases hn : c.noStun with
          | true => rw [hn] at hk; simp at hk
          | false =>
            rw [hn] at hk h3
            simp only [Bool.false_eq_true, if_false, false_or] at hk h3
            cases hx : c.external with
            | some s =>
              rw [hx] at hk
              simp only [Prod.mk.injEq, Option.some.injEq] at hk
              exact absurd (hk.2.1 ▸ hl2) (h3 s (.inl hx) l hl1)
            | none =>
              rw [hx] at hk
              simp only [stunForExternal] at hk
              cases hst : w.stun with
              | none => rw [hst] at hk; simp at hk
              | some s =>
                rw [hst] at hk
                simp only [Prod.mk.injEq, Option.some.injEq] at hk
                exact absurd (hk.2.1 ▸ hl2) (h3 s (.inr ⟨hx, hst⟩) l hl1)
    have := hgot _ _ _ e hk h1 hnl h2
    rw [hrec h] at this
    split at this
    · simp at this
    · simpa using this
  · intro h1 h2 h
    have hk : ∃ acts, knownAddress c w = (acts, none, c.listenPort) := by
      unfold knownAddress
      rcases h1 with h1 | ⟨h1, h1'⟩
      · exact ⟨[], by simp [h1]⟩
      · cases hn : c.noStun with
        | true => exact ⟨[], by simp⟩
        | false => exact ⟨[.askStun], by simp [h1, stunForExternal, h1']⟩
    obtain ⟨acts, hk⟩ := hk
    have := hskip _ _ _ hk (by
      rcases h2 with h2 | h2
      · exact .inl h2
      · exact .inr (.inr (hnone h2)))
    rw [hrec h] at this
    simp only [Option.some.injEq, Prod.mk.injEq] at this
    exact this
  · intro s e h1 h2 h3 h4 h5 h6
    have hk : knownAddress c w = ([], some s.ip, s.port) := by simp [knownAddress, h1, h2]
    have hnl : isLocal w (some s.ip) = false := by
      cases hl : isLocal w (some s.ip) with
      | false => rfl
      | true => obtain ⟨l, a, b⟩ := (hloc _).mp hl; exact absurd b (h6 l a)
    have := hgot _ _ _ e hk h3 hnl h4
    rw [if_pos ⟨rfl, by simpa using h5, by simp [h2]⟩] at this
    unfold new
    cases ho : ownAddress c w with
    | mk acts o => rw [ho] at this; simp only [] at this; subst this; rfl

/-- What the node does outside before it starts: the STUN server is only asked without `--no-stun` and without a given
address; a gateway is only looked for without `--no-upnp`, and the only port mapped is the one the node listens on, to
itself, for an hour. With both switches off the network nobody is contacted. -/
theorem C89_outside (c : Config) (w : World) :
    (.askStun ∈ (new c w).1 → c.noStun = false ∧ c.external = none) ∧
    (∀ a ∈ (new c w).1, a = .askStun ∨ (c.noUpnp = false ∧ (a = .searchGateway ∨
      ∃ g ip, w.gateway = some g ∧ g.reachedFrom = some ip ∧ a = .mapPort c.listenPort ⟨ip, c.listenPort⟩ 3600))) ∧
    (c.noStun = true → c.noUpnp = true → (new c w).1 = []) := by
  have hnew : (new c w).1 = (ownAddress c w).1 := by
    unfold new
    cases ho : ownAddress c w with
    | mk acts o =>
    cases o with
    | none => rfl
    | some a =>
      obtain ⟨ip, port⟩ := a
      simp only []
      split
      · rfl
      · split
        · rfl
        · split
          · rfl
          · split <;> rfl
  have hknown : ∀ a ∈ (knownAddress c w).1, a = .askStun ∧ c.noStun = false ∧ c.external = none := by
    intro a ha
    unfold knownAddress at ha
    cases hn : c.noStun with
    | true => rw [hn] at ha; simp at ha
    | false =>
      rw [hn] at ha
      simp only [Bool.false_eq_true, if_false] at ha
      cases hx : c.external with
      | some s => rw [hx] at ha; simp at ha
      | none =>
        rw [hx] at ha
        simp only [stunForExternal] at ha
        cases hst : w.stun <;> rw [hst] at ha <;> simp at ha <;> exact ⟨ha, rfl, rfl⟩
  have hupnp : ∀ a ∈ (upnpForExternal w c.listenPort).1, a = .searchGateway ∨
      ∃ g ip, w.gateway = some g ∧ g.reachedFrom = some ip ∧ a = .mapPort c.listenPort ⟨ip, c.listenPort⟩ 3600 := by
    intro a ha
    unfold upnpForExternal at ha
    cases hg : w.gateway with
    | none => rw [hg] at ha; simp at ha; exact .inl ha
    | some g =>
      rw [hg] at ha
      cases h1 : g.reachedFrom with
      | none => simp [h1] at ha; exact .inl ha
      | some ip =>
        cases h2 : g.external with
        | none => simp [h1, h2] at ha; exact .inl ha
        | some ext =>
          simp only [h1, h2, List.mem_cons, List.not_mem_nil, or_false] at ha
          rcases ha with ha | ha
          · exact .inl ha
          · exact .inr ⟨g, ip, rfl, h1, ha⟩
  have hall : ∀ a ∈ (ownAddress c w).1, a ∈ (knownAddress c w).1 ∨
      (c.noUpnp = false ∧ a ∈ (upnpForExternal w c.listenPort).1) := by
    intro a ha
    unfold ownAddress at ha
    cases hk : knownAddress c w with
    | mk acts rest =>
    obtain ⟨ip, port⟩ := rest
    rw [hk] at ha
    simp only [] at ha
    split at ha
    · next hc =>
      have hno : c.noUpnp = false := by
        simp only [Bool.and_eq_true, Bool.not_eq_true'] at hc; exact hc.1
      cases hu : upnpForExternal w c.listenPort with
      | mk more o =>
        rw [hu] at ha
        have : a ∈ acts ++ more := by
          cases o with
          | none => exact ha
          | some s =>
            cases ip with
            | none => exact ha
            | some known => simp only [] at ha; split at ha <;> exact ha
        rcases List.mem_append.mp this with h | h
        · exact .inl h
        · exact .inr ⟨hno, h⟩
    · exact .inl ha
  rw [hnew]
  refine ⟨?_, ?_, ?_⟩
  · intro h
    rcases hall _ h with h | ⟨_, h⟩
    · exact (hknown _ h).2
    · rcases hupnp _ h with h | ⟨_, _, _, _, h⟩ <;> simp at h
  · intro a h
    rcases hall _ h with h | ⟨h1, h⟩
    · exact .inl (hknown _ h).1
    · exact .inr ⟨h1, hupnp _ h⟩
  · intro h1 h2
    apply List.eq_nil_iff_forall_not_mem.mpr
    intro a h
    rcases hall _ h with h | ⟨h3, _⟩
    · have := (hknown _ h).2.1; rw [h1] at this; simp at this
    · rw [h2] at h3; simp at h3

/-- A record with an IPv4 address, and only such a record, can be reached, at this address and the UDP port in it. -/
theorem C89_reachable_partial (r : Record) (a : BitVec 32) (p : Nat) :
    r.reachable = some (a, p) ↔ r.ip = some (.v4 a) ∧ r.udp4 = p := by
  unfold Record.reachable
  rcases r with ⟨_ | ⟨x⟩ | ⟨x⟩, udp4, seq⟩ <;> simp

/-- The sequence number is the time of the start, so a start at a later second gives a record that replaces the earlier
one. -/
theorem C89_seq (c c' : Config) (w w' : World) (n n' : Node) (h : (new c w).2 = .ok n) (h' : (new c' w').2 = .ok n')
    (t t' : Nat) (ht : w.now = some t) (ht' : w'.now = some t') : n.record.seq = t ∧ (t < t' ↔ n.record.seq < n'.record.seq) := by
  have hs : ∀ {c w n t}, (new c w).2 = .ok n → w.now = some t → n.record.seq = t := by
    intro c w n t h ht
    unfold new at h
    cases ho : ownAddress c w with
    | mk acts o =>
    rw [ho] at h
    cases o with
    | none => simp at h
    | some a =>
      obtain ⟨ip, port⟩ := a
      simp only [ht] at h
      split at h
      · simp at h
      · split at h
        · simp at h
        · split at h
          · simp at h
          · simp only [Res.ok.injEq] at h; subst h; rfl
  refine ⟨hs h ht, ?_⟩
  rw [hs h ht, hs h' ht']

/-- The table starts with the bootnodes: the last record given for each id, without the node itself, and nothing else. -/
theorem C89_bootnodes (c : Config) (w : World) (n : Node) (h : (new c w).2 = .ok n) :
    (n.table.map (·.id)).Nodup ∧ ∀ p, p ∈ n.table ↔ p.id ≠ c.id ∧
      ∃ before after, c.bootnodes = before ++ p :: after ∧ ∀ q ∈ after, q.id ≠ p.id := by
  have ht : addBootnodes c.id [] c.bootnodes = some n.table := by
    unfold new at h
    cases ho : ownAddress c w with
    | mk acts o =>
    rw [ho] at h
    cases o with
    | none => simp at h
    | some a =>
      obtain ⟨ip, port⟩ := a
      simp only [] at h
      split at h
      · simp at h
      · split at h
        · simp at h
        · split at h
          · simp at h
          · next hb =>
            split at h
            · simp at h
            · simp only [Res.ok.injEq] at h; subst h; exact hb
  obtain ⟨h1, _, h3⟩ := addBootnodes_spec c.id c.bootnodes [] n.table ht (by simp) (by simp)
  refine ⟨h1, ?_⟩
  intro p
  rw [h3 p]
  have hl : lastOf c.bootnodes p.id = some p ↔ ∃ before after, c.bootnodes = before ++ p :: after ∧ ∀ q ∈ after, q.id ≠ p.id := by
    unfold lastOf
    rw [List.find?_eq_some_iff_append]
    constructor
    · rintro ⟨_, as, bs, e, hn⟩
      refine ⟨bs.reverse, as.reverse, ?_, ?_⟩
      · have := congrArg List.reverse e
        simpa using this
      · intro q hq
        have := hn q (List.mem_reverse.mp hq)
        simpa using this
    · rintro ⟨before, after, e, hn⟩
      refine ⟨by simp, after.reverse, before.reverse, by rw [e]; simp, ?_⟩
      intro q hq
      have := hn q (List.mem_reverse.mp hq)
      simpa using this
  rw [hl]
  simp

/-- The node can be set up whenever the key is usable, the clock is after 1970, the cache is not empty, the given address does
not contradict that of the gateway, and the bootnodes have an IPv4 address and fit into the table. -/
theorem C89_start (c : Config) (w : World) (hk : c.keyOk = true) (hc : 0 < c.cacheCapacity) (ht : w.now ≠ none)
    (hx : c.external = none ∨ c.noUpnp = true) (hu : ∀ p ∈ c.bootnodes, p.id ≠ c.id → p.udp4.isSome)
    (hf : Fits c.id c.bootnodes) : ∃ n, (new c w).2 = .ok n ∧ n.cache = c.cacheCapacity * 2 := by
  obtain ⟨table, hb⟩ := addBootnodes_total c.id c.bootnodes hf hu c.bootnodes [] (fun _ h => h) (by simp) (by simp)
  have ho : ∃ ip port, (ownAddress c w).2 = some (ip, port) := by
    unfold ownAddress
    cases hk : knownAddress c w with
    | mk acts rest =>
    obtain ⟨ip, port⟩ := rest
    simp only []
    split
    · next hcond =>
      have hno : c.noUpnp = false := by
        simp only [Bool.and_eq_true, Bool.not_eq_true'] at hcond; exact hcond.1
      have hxn : c.external = none := by
        rcases hx with h | h
        · exact h
        · rw [hno] at h; simp at h
      split
      · exact ⟨_, _, rfl⟩
      · split
        · exact ⟨_, _, rfl⟩
        · rw [if_neg (by simp [hxn])]; exact ⟨_, _, rfl⟩
    · exact ⟨_, _, rfl⟩
  obtain ⟨ip, port, ho⟩ := ho
  obtain ⟨t, ht⟩ := Option.ne_none_iff_exists'.mp ht
  unfold new
  cases hoa : ownAddress c w with
  | mk acts o =>
    rw [hoa] at ho
    simp only [] at ho
    subst ho
    simp only [hk, ht, hb, Bool.not_true, Bool.false_eq_true, if_false]
    rw [if_neg (by omega)]
    exact ⟨_, rfl, rfl⟩

/-- The port stays mapped as long as no two renewals in a row fail. -/
theorem C89_mapping (ok : Nat → Bool) (h : ∀ k, ok k = true ∨ ok (k + 1) = true) (t : Nat) : mapped ok t := by
  unfold mapped
  have e1 : mappingTimeout = 1800 := rfl
  have e2 : mappingDuration = 3600 := rfl
  rw [e1, e2]
  cases hk : t / 1800 with
  | zero => exact ⟨0, .inl rfl, by omega, by omega⟩
  | succ k =>
    rcases h k with hs | hs
    · exact ⟨k, .inr hs, by omega, by omega⟩
    · exact ⟨k + 1, .inr hs, by omega, by omega⟩

/-! ## What does not hold -/

def ownBase : Config := ⟨some ⟨.v4 0x01020304, 9999⟩, 9009, false, false, true, 5, [], 1000⟩
def ownWorld : World := ⟨none, some ⟨some (.v4 0x0A000002), some (.v4 0x01020304), true⟩, some [.v4 0x0A000002], some 1700000000⟩

/-- The port of the address that the user gives is not the one that is advertised when a gateway with the same address is
found: `--external-address 1.2.3.4:9999` becomes 1.2.3.4 with the port the node listens on. -/
theorem C89_port_violated : ∃ n, (new ownBase ownWorld).2 = .ok n ∧ n.record.ip = some (.v4 0x01020304) ∧
    n.record.udp4 = 9009 ∧ ownBase.external = some ⟨.v4 0x01020304, 9999⟩ :=
  ⟨⟨⟨some (.v4 0x01020304), 9009, 1700000000⟩, [], 2000⟩, by decide +kernel, rfl, rfl, rfl⟩

/-- With `--no-stun`, which is said to leave the address blank, it is that of the gateway unless `--no-upnp` is given too. -/
theorem C89_nostun_violated : ∃ c w n, c.noStun = true ∧ c.external = none ∧ (new c w).2 = .ok n ∧
    n.record.ip = some (.v4 0x01020304) :=
  ⟨{ ownBase with external := none, noStun := true }, ownWorld,
    ⟨⟨some (.v4 0x01020304), 9009, 1700000000⟩, [], 2000⟩, rfl, rfl, by decide +kernel, rfl⟩

/-- An IPv6 address that the user gives is accepted and put into the record, but with a port for IPv4 only: nobody can reach
the node. -/
theorem C89_ipv6_violated (c : Config) (w : World) (n : Node) (a : BitVec 128) (port : Nat)
    (hx : c.external = some ⟨.v6 a, port⟩) (hn : c.noStun = false) (hu : c.noUpnp = true) (h : (new c w).2 = .ok n) :
    n.record.ip = some (.v6 a) ∧ n.record.reachable = none := by
  obtain ⟨h1, _⟩ := (C89_address c w n).1 ⟨.v6 a, port⟩ hn hx (.inl hu) h
  exact ⟨h1, by simp [Record.reachable, h1]⟩

/-- When the clock was set back between two starts, the new record has a smaller number and other nodes keep the old one. -/
theorem C89_clock_violated : ∃ c w w' n n', (new c w).2 = .ok n ∧ (new c w').2 = .ok n' ∧ n.record.ip ≠ n'.record.ip ∧
    n'.record.seq < n.record.seq :=
  ⟨{ ownBase with external := none, noUpnp := true }, { ownWorld with stun := some ⟨.v4 1, 1⟩ },
    { ownWorld with stun := some ⟨.v4 2, 2⟩, now := some 1600000000 },
    ⟨⟨some (.v4 1), 1, 1700000000⟩, [], 2000⟩, ⟨⟨some (.v4 2), 2, 1600000000⟩, [], 2000⟩,
    by decide +kernel, by decide +kernel, by decide, by decide⟩

/-- One bootnode without an IPv4 address keeps the node from starting, however many others there are. -/
theorem C89_bootnode_violated (c : Config) (w : World) (p : Peer) (hp : p ∈ c.bootnodes) (ho : p.id ≠ c.id)
    (hu : p.udp4 = none) (n : Node) : (new c w).2 ≠ .ok n := by
  intro h
  have ht : addBootnodes c.id [] c.bootnodes = some n.table := by
    unfold new at h
    cases ho : ownAddress c w with
    | mk acts o =>
    rw [ho] at h
    cases o with
    | none => simp at h
    | some a =>
      obtain ⟨ip, port⟩ := a
      simp only [] at h
      split at h
      · simp at h
      · split at h
        · simp at h
        · split at h
          · simp at h
          · next hb =>
            split at h
            · simp at h
            · simp only [Res.ok.injEq] at h; subst h; exact hb
  have := (addBootnodes_spec c.id c.bootnodes [] n.table ht (by simp) (by simp)).2.1 p hp ho
  rw [hu] at this
  simp at this

/-- Seventeen bootnodes in one bucket (the farthest one holds half of all ids) keep the node from starting. -/
theorem C89_full_violated : ∃ c w, c.bootnodes.length = 17 ∧ (∀ p ∈ c.bootnodes, p.udp4.isSome) ∧ c.keyOk = true ∧
    w.now.isSome ∧ 0 < c.cacheCapacity ∧ (new c w).2 = .err := by
  refine ⟨{ ownBase with external := none, noUpnp := true, id := 0, bootnodes :=
      (List.range 17).map fun i => ⟨BitVec.ofNat 256 (2 ^ 255 + i), some (1, 1), 1⟩ }, ownWorld,
    by decide +kernel, by decide +kernel, rfl, rfl, by decide, by decide +kernel⟩

/-! ## Examples -/

namespace OwnRecordEx

example : Found ownWorld (.v4 0x01020304) := ⟨_, _, rfl, rfl, rfl, rfl⟩

example : (new { ownBase with noUpnp := true } ownWorld) =
    ([], .ok ⟨⟨some (.v4 0x01020304), 9999, 1700000000⟩, [], 2000⟩) := by decide +kernel

/-- The user's address and the gateway disagree. -/
example : (new { ownBase with external := some ⟨.v4 7, 1⟩ } ownWorld).2 = .err := by decide +kernel

/-- STUN and the gateway disagree: the gateway wins. -/
example : (new { ownBase with external := none } { ownWorld with stun := some ⟨.v4 7, 1⟩ }) =
    ([.askStun, .searchGateway, .mapPort 9009 ⟨.v4 0x0A000002, 9009⟩ 3600],
      .ok ⟨⟨some (.v4 0x01020304), 9009, 1700000000⟩, [], 2000⟩) := by decide +kernel

/-- Two records of one bootnode and the node itself. -/
example : (new { ownBase with noUpnp := true, bootnodes := [⟨8, some (1, 1), 1⟩, ⟨5, none, 1⟩, ⟨8, some (2, 2), 2⟩] }
    ownWorld).2 = .ok ⟨⟨some (.v4 0x01020304), 9999, 1700000000⟩, [⟨8, some (2, 2), 2⟩], 2000⟩ := by decide +kernel

example : Fits 5 [⟨8, some (1, 1), 1⟩, ⟨9, some (1, 1), 1⟩] := by
  intro ids hn hi _
  have hsub : ∀ i ∈ ids, i ∈ [(8 : Id), 9] := by
    intro i hm
    obtain ⟨_, p, hp, rfl⟩ := hi i hm
    simp only [List.mem_cons, List.not_mem_nil, or_false] at hp
    rcases hp with rfl | rfl <;> simp
  have := hn.length_le_of_subset hsub
  simp at this
  omega

example : mapped (fun k => k % 2 == 0) 100000 := C89_mapping _ (by intro k; simp; omega) _

end OwnRecordEx

end Verif.Props
