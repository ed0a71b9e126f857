import Verif.Lemmas.ExceptEq
import Verif.Lemmas.RpcServers

/-! C110: the JSON-RPC servers. -/

namespace Verif.Props
open Verif.NodeConfig (Str Addr Handlers Module methods split)
open Verif.E2store (Res)
open Verif.RpcServers
open RpcServersSpec

/-- Starting servers aborts exactly if a module is named twice or a module is asked for whose subnetwork does not
run. Missing: naming a module twice should not abort (`C110_repeat_violated`). -/
theorem C110_aborts_partial (bind : Bind) (ipcStarts : Str → Bool) (h : Handlers) (c : Config) (s : Selections) :
    serve bind ipcStarts h c s = .abort ↔
      ∃ sel ∈ [s.http, s.ws, s.ipc], Repeats sel ∨ ∃ m, Picks sel m ∧ ¬ Runs h m := by
  show _ ↔ ∃ sel ∈ [s.http, s.ws, s.ipc], Unservable h sel
  unfold serve
  by_cases hu : ∃ sel ∈ [s.http, s.ws, s.ipc], Unservable h sel
  · rw [(buildModules_eq h s).2 hu]
    exact ⟨fun _ => hu, fun _ => rfl⟩
  · rw [(buildModules_eq h s).1 hu]
    simp only [hu, iff_false]
    cases start bind ipcStarts c s ⟨namesOf s.http, namesOf s.ws, namesOf s.ipc⟩ <;> simp

/-- A module that is named twice makes the program abort, although everything it needs runs and although it could
be served. -/
theorem C110_repeat_violated (bind : Bind) (ipcStarts : Str → Bool) (h : Handlers) (c : Config) (m : Module) :
    serve bind ipcStarts h c ⟨some (.selection [m, m]), none, none⟩ = .abort :=
  (C110_aborts_partial bind ipcStarts h c _).2
    ⟨some (.selection [m, m]), by simp, Or.inl ⟨[m, m], rfl, by simp⟩⟩

/-- When the servers run, every transport answers exactly the methods of the modules asked for on it: all of them if
its server was asked for, none otherwise. -/
theorem C110_answers (bind : Bind) (ipcStarts : Str → Bool) (h : Handlers) (c : Config) (s : Selections) (hd : Handle)
    (hr : serve bind ipcStarts h c s = .running hd) (x : Str) :
    (Answers hd.http x ↔ c.http = true ∧ Chosen s.http x) ∧ (Answers hd.ws x ↔ c.ws = true ∧ Chosen s.ws x) ∧
      (AnswersIpc hd x ↔ c.ipc = true ∧ Chosen s.ipc x) := by
  obtain ⟨-, hs⟩ := serve_running.1 hr
  obtain ⟨w, r, h1, h2, -, -, h3, h4, h5, -⟩ := start_ok hs
  have hipc : AnswersIpc hd x ↔ c.ipc = true ∧ Chosen s.ipc x := by
    unfold AnswersIpc
    rw [h5, ← mem_namesOf]
    cases c.ipc with
    | false => simp
    | true =>
      simp only [if_true, true_and]
      cases namesOf s.ipc with
      | none => simp
      | some n =>
        simp only [Option.map_some, Option.some.injEq, Prod.mk.injEq]
        constructor
        · rintro ⟨_, _, ⟨-, rfl⟩, hx⟩; exact ⟨_, rfl, hx⟩
        · rintro ⟨_, rfl, hx⟩; exact ⟨_, _, ⟨rfl, rfl⟩, hx⟩
  rw [h3, h4]
  by_cases hsh : Shared c
  · obtain ⟨-, b, -, rfl⟩ := buildWsHttp_shared hsh h1
    obtain ⟨hid, rfl⟩ := startWsHttp_same h2
    have hc : Chosen s.http x ↔ Chosen s.ws x := by
      unfold Chosen; simp only [hid _]
    have key : Answers (((namesOf s.http).or (namesOf s.ws)).map (⟨b, ·⟩)) x ↔ Chosen s.http x := by
      cases hh : namesOf s.http with
      | some names => rw [← mem_namesOf, hh]; simp [Answers]
      | none => rw [hc, ← mem_namesOf]; cases namesOf s.ws <;> simp [Answers]
    simp only [hsh.1, hsh.2.1, true_and]
    exact ⟨key, key.trans hc, hipc⟩
  · obtain ⟨http, ws, hw, hh, rfl⟩ := buildWsHttp_separate_ok hsh h1
    have h2 := startWsHttp_different h2
    subst h2
    refine ⟨?_, ?_, hipc⟩
    · rw [← mem_namesOf]
      rcases single_ok hh with ⟨h6, b, rfl, -⟩ | ⟨h6, rfl⟩
      · simp only [h6, true_and, Answers]
        cases namesOf s.http <;> simp
      · simp [h6, Answers]
    · rw [← mem_namesOf]
      rcases single_ok hw with ⟨h6, b, rfl, -⟩ | ⟨h6, rfl⟩
      · simp only [h6, true_and, Answers]
        cases namesOf s.ws <;> simp
      · simp [h6, Answers]

/-- The servers that run, one at a time. -/
theorem running_server {bind : Bind} {ipcStarts : Str → Bool} {h : Handlers} {c : Config} {s : Selections}
    {hd : Handle} (hr : serve bind ipcStarts h c s = .running hd) :
    (Shared c → ∀ r, hd.http = some r ∨ hd.ws = some r → hd.http = some r ∧ hd.ws = some r ∧
      hd.httpLocal = some r.server.addr ∧ hd.wsLocal = some r.server.addr ∧
      buildServer bind [] (httpAt c) (c.wsCors.or c.httpCors) true true = .ok r.server) ∧
    (¬ Shared c →
      (∀ r, hd.ws = some r → hd.wsLocal = some r.server.addr ∧
        buildServer bind [] (wsAt c) c.wsCors false true = .ok r.server) ∧
      (∀ r, hd.http = some r → hd.httpLocal = some r.server.addr ∧
        ∃ taken, (taken = [] ∨ c.ws = true ∧ ∃ a, bind [] (wsAt c) = some a ∧ taken = [a]) ∧
          buildServer bind taken (httpAt c) c.httpCors true false = .ok r.server)) := by
  obtain ⟨-, hs⟩ := serve_running.1 hr
  obtain ⟨w, r, h1, h2, h3, h4, h5, h6, -, -⟩ := start_ok hs
  constructor
  · intro hsh q hq
    obtain ⟨-, b, hb, rfl⟩ := buildWsHttp_shared hsh h1
    obtain ⟨-, rfl⟩ := startWsHttp_same h2
    simp only at h5 h6
    rw [h5, h6] at hq ⊢
    have hq' := hq.elim id id
    obtain ⟨n, h7, rfl⟩ := Option.map_eq_some_iff.1 hq'
    exact ⟨hq', hq', h3, h4, hb⟩
  · intro hsh
    obtain ⟨http, ws, hw, hh, rfl⟩ := buildWsHttp_separate_ok hsh h1
    have h2 := startWsHttp_different h2
    subst h2
    simp only at h3 h4 h5 h6
    constructor
    · intro q hq
      rw [h6] at hq
      rcases single_ok hw with ⟨_, b, rfl, hb⟩ | ⟨_, rfl⟩
      · simp only [Option.bind_some, Option.map_eq_some_iff] at hq
        obtain ⟨names, -, rfl⟩ := hq
        exact ⟨h4, hb⟩
      · cases hq
    · intro q hq
      rw [h5] at hq
      rcases single_ok hh with ⟨_, b, rfl, hb⟩ | ⟨_, rfl⟩
      · simp only [Option.bind_some, Option.map_eq_some_iff] at hq
        obtain ⟨names, -, rfl⟩ := hq
        refine ⟨h3, _, ?_, hb⟩
        rcases single_ok hw with ⟨h7, b', rfl, hb'⟩ | ⟨_, rfl⟩
        · exact Or.inr ⟨h7, b'.addr, (buildServer_ok hb').1, rfl⟩
        · exact Or.inl rfl
      · cases hq

/-- Where the servers listen and what they take: with different addresses the one for HTTP takes nothing but HTTP, at
the address asked for or port 8545, the one for WebSocket nothing but WebSocket, at the address asked for or port
8546; with one address for both one server takes both there. IPC is served at the path asked for. Missing: the
default port of WebSocket if no address is given for either (`C110_default_violated`). -/
theorem C110_where_partial (bind : Bind) (ipcStarts : Str → Bool) (h : Handlers) (c : Config) (s : Selections)
    (hd : Handle) (hr : serve bind ipcStarts h c s = .running hd) :
    (Shared c → hd.http = hd.ws ∧ ∀ r, hd.http = some r →
      bind [] (c.httpAddr.getD ⟨0, 8545⟩) = some r.server.addr ∧ r.server.http = true ∧ r.server.ws = true) ∧
    (¬ Shared c →
      (∀ r, hd.ws = some r → bind [] (c.wsAddr.getD ⟨0, 8546⟩) = some r.server.addr ∧ r.server.http = false ∧
        r.server.ws = true) ∧
      (∀ r, hd.http = some r → (∃ taken, bind taken (c.httpAddr.getD ⟨0, 8545⟩) = some r.server.addr ∧
          ∀ a ∈ taken, c.ws = true ∧ bind [] (c.wsAddr.getD ⟨0, 8546⟩) = some a) ∧
        r.server.http = true ∧ r.server.ws = false)) ∧
    (∀ p names, hd.ipc = some (p, names) → p = c.ipcEndpoint.getD "/tmp/trin-jsonrpc.ipc".toList ∧
      ipcStarts p = true) := by
  have hrs := running_server hr
  refine ⟨?_, ?_, ?_⟩
  · intro hsh
    constructor
    · cases hh : hd.http with
      | some r => exact ((hrs.1 hsh r (Or.inl hh)).2.1).symm
      | none =>
        cases hw : hd.ws with
        | none => rfl
        | some r => rw [(hrs.1 hsh r (Or.inr hw)).1] at hh; cases hh
    · intro r hq
      obtain ⟨h1, h2, h3, -⟩ := buildServer_ok (hrs.1 hsh r (Or.inl hq)).2.2.2.2
      exact ⟨h1, h2, h3⟩
  · intro hsh
    constructor
    · intro r hq
      obtain ⟨h1, h2, h3, -⟩ := buildServer_ok ((hrs.2 hsh).1 r hq).2
      exact ⟨h1, h2, h3⟩
    · intro r hq
      obtain ⟨-, taken, ht, hb⟩ := (hrs.2 hsh).2 r hq
      obtain ⟨h1, h2, h3, -⟩ := buildServer_ok hb
      refine ⟨⟨taken, h1, ?_⟩, h2, h3⟩
      rcases ht with rfl | ⟨h4, a, h5, rfl⟩
      · simp
      · intro b hb
        simp only [List.mem_singleton] at hb
        subst hb
        exact ⟨h4, h5⟩
  · intro p names hp
    obtain ⟨-, hs⟩ := serve_running.1 hr
    obtain ⟨w, r, -, -, -, -, -, -, h5, h6⟩ := start_ok hs
    rw [h5] at hp
    cases hi : c.ipc with
    | false => simp [hi] at hp
    | true =>
      simp only [hi, if_true, Option.map_eq_some_iff, Prod.mk.injEq] at hp
      obtain ⟨n, h7, rfl, -⟩ := hp
      exact ⟨rfl, h6 hi (by rw [h7]; simp)⟩

/-- If no address is given for either transport, WebSocket is not served at its own default port but at the one of
HTTP. If only WebSocket is given an address, and that is the default of HTTP, the two are not put together, and the
second cannot listen. -/
theorem C110_default_violated (bind : Bind) (ipcStarts : Str → Bool) (h : Handlers) (c : Config) (s : Selections)
    (hh : c.http = true) (hw : c.ws = true) (ha : c.httpAddr = none) :
    (c.wsAddr = none → ∀ hd, serve bind ipcStarts h c s = .running hd → ∀ r, hd.ws = some r →
      bind [] ⟨0, 8545⟩ = some r.server.addr) ∧
    (c.wsAddr = some ⟨0, 8545⟩ → bind [] ⟨0, 8545⟩ = some ⟨0, 8545⟩ →
      (∀ taken a, a ∈ taken → bind taken a = none) → ∀ hd, serve bind ipcStarts h c s ≠ .running hd) := by
  constructor
  · intro hn hd hr r hq
    have hsh : Shared c := ⟨hh, hw, by rw [ha, hn]⟩
    have hw' := (C110_where_partial bind ipcStarts h c s hd hr).1 hsh
    have := hw'.2 r (by rw [hw'.1]; exact hq)
    rw [ha] at this
    exact this.1
  · intro hn hb hused hd hr
    have hsh : ¬ Shared c := by
      intro hc
      have := hc.2.2
      rw [ha, hn] at this
      cases this
    obtain ⟨-, hs⟩ := serve_running.1 hr
    obtain ⟨w, r, h1, -⟩ := start_ok hs
    obtain ⟨http, ws, h2, h3, -⟩ := buildWsHttp_separate_ok hsh h1
    rcases single_ok h2 with ⟨-, b, rfl, hb'⟩ | ⟨h4, -⟩
    · rcases single_ok h3 with ⟨-, b2, rfl, hb2⟩ | ⟨h4, -⟩
      · have e1 := (buildServer_ok hb').1
        have e2 := (buildServer_ok hb2).1
        have e3 : wsAt c = ⟨0, 8545⟩ := by unfold wsAt; rw [hn]; rfl
        have e4 : httpAt c = ⟨0, 8545⟩ := by unfold httpAt; rw [ha]; rfl
        rw [e3, hb] at e1
        injection e1 with e1
        rw [e4, hused _ _ (by simp [← e1])] at e2
        cases e2
      · rw [hh] at h4; cases h4
    · rw [hw] at h4; cases h4

/-- The address that is reported for a server that answers is the one it listens at. Missing: an address is reported
for servers that do not answer as well (`C110_reported_violated`). -/
theorem C110_reported_partial (bind : Bind) (ipcStarts : Str → Bool) (h : Handlers) (c : Config) (s : Selections)
    (hd : Handle) (hr : serve bind ipcStarts h c s = .running hd) :
    (∀ r, hd.http = some r → hd.httpLocal = some r.server.addr) ∧
      (∀ r, hd.ws = some r → hd.wsLocal = some r.server.addr) := by
  have hrs := running_server hr
  by_cases hsh : Shared c
  · exact ⟨fun r hq => (hrs.1 hsh r (Or.inl hq)).2.2.1, fun r hq => (hrs.1 hsh r (Or.inr hq)).2.2.2.1⟩
  · exact ⟨fun r hq => ((hrs.2 hsh).2 r hq).1, fun r hq => ((hrs.2 hsh).1 r hq).1⟩

/-- A server for HTTP with no modules selected is not started, but its address is reported. -/
theorem C110_reported_violated (bind : Bind) (ipcStarts : Str → Bool) (h : Handlers) (a : Addr) (l : Addr)
    (hb : bind [] a = some l) (ipc : Option Str) :
    serve bind ipcStarts h ⟨true, none, some a, false, none, none, false, ipc⟩ ⟨none, none, none⟩ =
      .running ⟨some l, none, none, none, none⟩ := by
  refine serve_running.2 ⟨?_, ?_⟩
  · simp [Unservable, Repeats, Picks]
  · have h1 : buildWsHttp bind ⟨true, none, some a, false, none, none, false, ipc⟩ =
        .ok ⟨some l, none, .differentPort (some ⟨l, none, true, false⟩) none⟩ := by
      rw [buildWsHttp_separate (fun hc => by cases hc.2.1)]
      have h2 : single true bind [] a none true false = .ok (some ⟨l, none, true, false⟩) := by
        simp [single, buildServer, Except.bind, Except.map, hb]
      show Except.bind (single true bind [] a none true false) _ = _
      rw [h2]; rfl
    exact start_runs (r := (none, none)) h1 rfl (by simp)

/-- The servers run exactly if nothing that was asked for makes them abort; with one address for both transports
the origins do not contradict each other, the modules are the same, the origins can be used and the address can be
listened at; otherwise the same of the origins and the address of each; and the path of IPC can be listened at if
something is to be served there. -/
theorem C110_starts (bind : Bind) (ipcStarts : Str → Bool) (h : Handlers) (c : Config) (s : Selections) :
    (∃ hd, serve bind ipcStarts h c s = .running hd) ↔
      (¬ ∃ sel ∈ [s.http, s.ws, s.ipc], Unservable h sel) ∧
      (Shared c → SameCors c.wsCors c.httpCors ∧ SameModules s ∧ GoodCors (c.wsCors.or c.httpCors) ∧
        bind [] (httpAt c) ≠ none) ∧
      (¬ Shared c → (c.ws = true → GoodCors c.wsCors) ∧ (c.http = true → GoodCors c.httpCors) ∧ CanBind bind c) ∧
      (c.ipc = true → s.ipc ≠ none → ipcStarts (ipcAt c) = true) := by
  constructor
  · rintro ⟨hd, hr⟩
    obtain ⟨hu, hs⟩ := serve_running.1 hr
    obtain ⟨w, r, h1, h2, -, -, -, -, -, h6⟩ := start_ok hs
    refine ⟨hu, ?_, ?_, ?_⟩
    · intro hsh
      obtain ⟨hc, b, hb, rfl⟩ := buildWsHttp_shared hsh h1
      have hg := buildServer_iff.1 ⟨b, hb⟩
      refine ⟨hc, ?_, hg⟩
      exact (startWsHttp_same h2).1
    · intro hsh
      obtain ⟨http, ws, hw, hh, rfl⟩ := buildWsHttp_separate_ok hsh h1
      refine ⟨?_, ?_, (ws.map (·.addr)).toList, ?_, ?_⟩
      · intro hc
        rcases single_ok hw with ⟨-, b, -, hb⟩ | ⟨h4, -⟩
        · exact (buildServer_iff.1 ⟨b, hb⟩).1
        · rw [hc] at h4; cases h4
      · intro hc
        rcases single_ok hh with ⟨-, b, -, hb⟩ | ⟨h4, -⟩
        · exact (buildServer_iff.1 ⟨b, hb⟩).1
        · rw [hc] at h4; cases h4
      · rcases single_ok hw with ⟨h4, b, rfl, hb⟩ | ⟨h4, rfl⟩
        · rw [if_pos h4]
          exact ⟨b.addr, (buildServer_ok hb).1, rfl⟩
        · rw [if_neg (by rw [h4]; simp)]; rfl
      · intro hc
        rcases single_ok hh with ⟨-, b, -, hb⟩ | ⟨h4, -⟩
        · exact (buildServer_iff.1 ⟨b, hb⟩).2
        · rw [hc] at h4; cases h4
    · intro hi hn
      exact h6 hi (fun hc => hn ((namesOf_none _).1 hc))
  · rintro ⟨hu, hshared, hsep, hipc⟩
    have hipc' : c.ipc = true → (namesOf s.ipc) ≠ none → ipcStarts (ipcAt c) = true :=
      fun hi hn => hipc hi (fun hc => hn ((namesOf_none _).2 hc))
    by_cases hsh : Shared c
    · obtain ⟨hc, hm, hg, hb⟩ := hshared hsh
      obtain ⟨b, hb⟩ := buildServer_iff (http := true) (ws := true) |>.2 ⟨hg, hb⟩
      have h1 := buildWsHttp_shared_ok hsh hc hb
      have h2 : ∃ r, startWsHttp s ⟨namesOf s.http, namesOf s.ws, namesOf s.ipc⟩ (.samePort b) = .ok r := by
        simp only [startWsHttp, (areIdentical_iff s).2 hm, if_true]
        split <;> exact ⟨_, rfl⟩
      obtain ⟨r, h2⟩ := h2
      exact ⟨_, serve_running.2 ⟨hu, start_runs h1 h2 hipc'⟩⟩
    · obtain ⟨hgw, hgh, taken, ht, hb⟩ := hsep hsh
      have h1 : ∃ ws, single c.ws bind [] (wsAt c) c.wsCors false true = .ok ws ∧
          (ws.map (·.addr)).toList = taken := by
        unfold single
        cases hw : c.ws with
        | false =>
          rw [hw, if_neg (by simp)] at ht
          exact ⟨none, rfl, ht.symm⟩
        | true =>
          rw [hw, if_pos rfl] at ht
          obtain ⟨a, ha, rfl⟩ := ht
          obtain ⟨b, hb⟩ := buildServer_iff (bind := bind) (taken := []) (addr := wsAt c) (http := false) (ws := true) |>.2
            ⟨hgw hw, by rw [ha]; simp⟩
          refine ⟨some b, by simp only [if_true]; rw [hb]; rfl, ?_⟩
          have := (buildServer_ok hb).1
          rw [ha] at this
          injection this with this
          simp [this]
      obtain ⟨ws, hw, rfl⟩ := h1
      have h2 : ∃ http, single c.http bind (ws.map (·.addr)).toList (httpAt c) c.httpCors true false = .ok http := by
        unfold single
        cases hh : c.http with
        | false => exact ⟨none, rfl⟩
        | true =>
          obtain ⟨b, hb⟩ := buildServer_iff (http := true) (ws := false) |>.2 ⟨hgh hh, hb hh⟩
          exact ⟨some b, by simp only [if_true]; rw [hb]; rfl⟩
      obtain ⟨http, hh⟩ := h2
      have h3 : buildWsHttp bind c = .ok ⟨http.map (·.addr), ws.map (·.addr), .differentPort http ws⟩ := by
        rw [buildWsHttp_separate hsh, hw]
        show Except.bind (single c.http bind (ws.map (·.addr)).toList (httpAt c) c.httpCors true false) _ = _
        rw [hh]; rfl
      exact ⟨_, serve_running.2 ⟨hu, start_runs h3 rfl hipc'⟩⟩

/-- Which reason is given: contradicting origins or modules at one address are refused as such, before anything
answers. -/
theorem C110_conflict (bind : Bind) (ipcStarts : Str → Bool) (h : Handlers) (c : Config) (s : Selections)
    (hu : ¬ ∃ sel ∈ [s.http, s.ws, s.ipc], Unservable h sel) (hsh : Shared c) :
    (¬ SameCors c.wsCors c.httpCors → serve bind ipcStarts h c s = .refused .conflictingCors) ∧
    (SameCors c.wsCors c.httpCors → GoodCors (c.wsCors.or c.httpCors) → bind [] (httpAt c) ≠ none →
      ¬ SameModules s → serve bind ipcStarts h c s = .refused .conflictingModules) := by
  unfold serve
  rw [(buildModules_eq h s).1 hu]
  simp only
  constructor
  · intro hc
    have h1 : buildWsHttp bind c = .error .conflictingCors := by
      unfold buildWsHttp
      simp only [if_pos (show c.httpAddr = c.wsAddr ∧ c.http = true ∧ c.ws = true from ⟨hsh.2.2, hsh.1, hsh.2.1⟩)]
      rw [(sharedCors_ok _ _).2 hc]; rfl
    simp only [start, h1, Except.bind]
  · intro hc hg hb hm
    obtain ⟨b, hb⟩ := buildServer_iff (http := true) (ws := true) |>.2 ⟨hg, hb⟩
    have h1 := buildWsHttp_shared_ok hsh hc hb
    have h2 : areIdentical s.http s.ws = false := by
      cases hx : areIdentical s.http s.ws with
      | false => rfl
      | true => exact absurd ((areIdentical_iff s).1 hx) hm
    simp only [start, h1, Except.bind, startWsHttp, h2]
    rfl

/-- Which origins are let in: with different addresses those of the list of the transport; with one address those of
the list that is there. Missing: with one address and two lists, those of the list of HTTP
(`C110_shared_origins_violated`). -/
theorem C110_origins_partial (bind : Bind) (ipcStarts : Str → Bool) (h : Handlers) (c : Config) (s : Selections)
    (hd : Handle) (hr : serve bind ipcStarts h c s = .running hd) (o : Str) :
    (∀ r, hd.http = some r → (¬ Shared c ∨ c.wsCors = none ∨ c.wsCors = c.httpCors) →
      (Allowed r o ↔ LetsIn c.httpCors o)) ∧
    (∀ r, hd.ws = some r → (¬ Shared c ∨ c.wsCors ≠ none) → (Allowed r o ↔ LetsIn c.wsCors o)) ∧
    (∀ r, hd.ws = some r ∨ hd.http = some r → Shared c → (Allowed r o ↔ LetsIn (c.wsCors.or c.httpCors) o)) := by
  have hrs := running_server hr
  have key : ∀ r, hd.ws = some r ∨ hd.http = some r → Shared c →
      (Allowed r o ↔ LetsIn (c.wsCors.or c.httpCors) o) := fun r hq hsh =>
    (buildServer_ok (hrs.1 hsh r hq.symm).2.2.2.2).2.2.2 o
  refine ⟨?_, ?_, key⟩
  · intro r hq hc
    by_cases hsh : Shared c
    · rw [key r (Or.inr hq) hsh]
      rcases hc with hc | hc | hc
      · exact absurd hsh hc
      · rw [hc]; rfl
      · rw [hc]; cases c.httpCors <;> rfl
    · obtain ⟨-, taken, -, hb⟩ := (hrs.2 hsh).2 r hq
      exact (buildServer_ok hb).2.2.2 o
  · intro r hq hc
    by_cases hsh : Shared c
    · rw [key r (Or.inl hq) hsh]
      rcases hc with hc | hc
      · exact absurd hsh hc
      · cases hw : c.wsCors with
        | none => exact absurd hw hc
        | some d => rfl
    · exact (buildServer_ok ((hrs.2 hsh).1 r hq).2).2.2.2 o

/-- What is left of a text without the white space around it. -/
theorem C110_trim (s t : Str) : trim s = t ↔
    ∃ a b, s = a ++ t ++ b ∧ (∀ c ∈ a, isWhite c = true) ∧ (∀ c ∈ b, isWhite c = true) ∧
      (∀ c, t.head? = some c → isWhite c = false) ∧ ∀ c, t.getLast? = some c → isWhite c = false :=
  trim_iff s t

/-- Two origins with a comma and a space between them: the list is taken, but the second origin is not let in. -/
theorem C110_spaces_violated (a b : Str) (ha : ',' ∉ a) (hb : ',' ∉ b) (hca : Clean a) (hcb : Clean b)
    (hstar : a ≠ ['*']) (hab : a ≠ b) (hb' : ∀ c, b.head? = some c → c ≠ ' ') :
    ∃ k, createCors (a ++ ',' :: ' ' :: b) = .ok k ∧ k.allows a = true ∧ k.allows b = false := by
  have hsp : split ',' (a ++ ',' :: ' ' :: b) = [a, ' ' :: b] := by
    rw [Verif.NodeConfig.split_append _ _ ha, split_none _ _ (by
      simp only [List.mem_cons, not_or]; exact ⟨by decide, hb⟩)]
  have hmem : ∀ e, Entry (a ++ ',' :: ' ' :: b) e ↔ e = a ∨ e = ' ' :: b := by
    intro e; rw [← mem_split_iff, hsp]; simp
  have hg : GoodCors (some (a ++ ',' :: ' ' :: b)) := by
    intro d hd
    injection hd with hd; subst hd
    right
    intro e he
    rcases (hmem e).1 he with rfl | rfl
    · exact ⟨hstar, hca⟩
    · refine ⟨by simp, ?_⟩
      intro c hc
      rcases List.mem_cons.1 hc with rfl | hc
      · right; decide
      · exact hcb c hc
  have hw : ¬ Wild (a ++ ',' :: ' ' :: b) := by
    rintro ⟨p, q, he, hp, hq⟩
    have : ',' ∈ p ++ '*' :: q := by rw [← he]; simp
    rcases List.mem_append.1 this with h | h
    · exact absurd (hp _ h) (by decide)
    · rcases List.mem_cons.1 h with h | h
      · exact absurd h (by decide)
      · exact absurd (hq _ h) (by decide)
  obtain ⟨k, hk⟩ := (createCors_ok _).2 hg
  refine ⟨k, hk, (createCors_allows hk a).2 (Or.inr ((hmem a).2 (Or.inl rfl))), ?_⟩
  cases hx : k.allows b with
  | false => rfl
  | true =>
    rcases (createCors_allows hk b).1 hx with h | h
    · exact absurd h hw
    · rcases (hmem b).1 h with h | h
      · exact absurd h.symm hab
      · exact absurd (by rw [h]; rfl) (fun hc => hb' ' ' hc rfl)

/-- Both transports at one address with the same origin, once with a space in front: the servers run, and the origin
that was asked for over HTTP is not let in. -/
theorem C110_shared_origins_violated (bind : Bind) (ipcStarts : Str → Bool) (h : Handlers) (a l : Addr)
    (hb : bind [] a = some l) : ∃ hd r,
      serve bind ipcStarts h ⟨true, some "http://a".toList, some a, true, some " http://a".toList, some a, false, none⟩
        ⟨some (.selection [.web3]), some (.selection [.web3]), none⟩ = .running hd ∧
      hd.http = some r ∧ ¬ Allowed r "http://a".toList := by
  have hk : createCors " http://a".toList = .ok (.list [" http://a".toList]) := by decide +kernel
  have h1 : buildServer bind [] a (some " http://a".toList) true true =
      .ok ⟨l, some (.list [" http://a".toList]), true, true⟩ := by
    show Except.bind ((createCors " http://a".toList).map some) _ = _
    rw [hk]
    simp only [Except.map, Except.bind, hb]
  refine ⟨⟨some l, some l, some ⟨⟨l, some (.list [" http://a".toList]), true, true⟩, methods .web3⟩,
    some ⟨⟨l, some (.list [" http://a".toList]), true, true⟩, methods .web3⟩, none⟩, _, ?_, rfl, ?_⟩
  · refine serve_running.2 ⟨?_, ?_⟩
    · simp only [List.mem_cons, List.not_mem_nil, or_false, exists_eq_or_imp, exists_eq_left, not_or]
      refine ⟨?_, ?_, ?_⟩ <;> simp [Unservable, Repeats, Picks, Selected, Runs]
    · have h2 := buildWsHttp_shared_ok (bind := bind)
        (c := ⟨true, some "http://a".toList, some a, true, some " http://a".toList, some a, false, none⟩)
        ⟨rfl, rfl, rfl⟩ (by
          intro x y hx hy
          injection hx with hx; injection hy with hy
          subst hx; subst hy; decide) h1
      exact start_runs (r := (some ⟨⟨l, some (.list [" http://a".toList]), true, true⟩, methods .web3⟩,
        some ⟨⟨l, some (.list [" http://a".toList]), true, true⟩, methods .web3⟩)) h2
        (by simp [startWsHttp, areIdentical, Verif.NodeConfig.identical, Selection.modules, namesOf]) (by simp)
  · rintro ⟨k, hk, ho⟩
    injection hk with hk
    subst hk
    exact absurd ho (by decide)

/-- What runs, in the terms of the command line: the address and the names of a transport. -/
def servedAt (r : Option Running) : Option (Addr × List Str) := r.map fun r => (r.server.addr, r.names)

/-- The servers of a node that was started for HTTP are these: the first address that the URL stands for, without
restrictions on origins, WebSocket at its port on all interfaces if it was asked for, and the same modules on both. -/
theorem C110_node (resolve : Str → Option (List Addr)) (ipcStarts : Str → Bool) (c : NodeConfig.Config) (h : Handlers)
    (served : NodeConfig.Served) (ht : c.transport = .http) (hl : NodeConfig.launch resolve c h = .ok served) :
    ∃ ms addr rest hd, NodeConfig.modulesFor c.subnetworks = some ms ∧ resolve c.httpAddress = some (addr :: rest) ∧
      serve (fun _ a => some a) ipcStarts h
        ⟨true, none, some addr, c.ws, none, if c.ws then some ⟨0, c.wsPort⟩ else none, false, none⟩
        ⟨some (.selection ms), if c.ws then some (.selection ms) else none, none⟩ = .running hd ∧
      served.ipc = none ∧ servedAt hd.http = served.http ∧ servedAt hd.ws = served.ws := by
  unfold NodeConfig.launch at hl
  cases hm : NodeConfig.modulesFor c.subnetworks with
  | none => rw [hm] at hl; cases hl
  | some ms =>
    rw [hm] at hl
    simp only [ht] at hl
    cases hn : NodeConfig.moduleFor h ms with
    | err => rw [hn] at hl; cases hl
    | panic => rw [hn] at hl; cases hl
    | ok names =>
      rw [hn] at hl
      have hid : NodeConfig.identical ms ms = true := by simp [NodeConfig.identical]
      have hmm : maybeModule h (some (.selection ms)) = .ok (some names) := by
        show (NodeConfig.moduleFor h ms).map some = _
        rw [hn]; rfl
      have hno : maybeModule h none = .ok none := rfl
      cases hw : c.ws with
      | false =>
        simp only [hw, Res.bind, Res.map, Bool.false_eq_true, if_false] at hl
        cases hr : resolve c.httpAddress with
        | none => rw [hr] at hl; cases hl
        | some l =>
          cases l with
          | nil => rw [hr] at hl; cases hl
          | cons addr rest =>
            rw [hr] at hl
            injection hl with hl
            subst hl
            refine ⟨ms, addr, rest, ⟨some addr, none, some ⟨⟨addr, none, true, false⟩, names⟩, none, none⟩, rfl, rfl, ?_,
              rfl, rfl, rfl⟩
            simp only [serve, buildModules, hmm, Bool.false_eq_true, if_false]
            rfl
      | true =>
        simp only [hw, Res.bind, Res.map, if_true] at hl
        cases hr : resolve c.httpAddress with
        | none => rw [hr] at hl; cases hl
        | some l =>
          cases l with
          | nil => rw [hr] at hl; cases hl
          | cons addr rest =>
            rw [hr] at hl
            simp only [hid, if_true] at hl
            by_cases ha : addr = ⟨0, c.wsPort⟩
            · rw [if_pos ha] at hl
              injection hl with hl
              subst hl
              refine ⟨ms, addr, rest, ⟨some addr, some addr, some ⟨⟨addr, none, true, true⟩, names⟩,
                some ⟨⟨addr, none, true, true⟩, names⟩, none⟩, rfl, rfl, ?_, rfl, rfl, rfl⟩
              simp only [serve, buildModules, hmm, hno, Res.bind, if_true]
              simp [start, buildWsHttp, ha, sharedCors, buildServer, Except.bind, Except.map, startWsHttp, areIdentical,
                Selection.modules, hid]
            · rw [if_neg ha] at hl
              injection hl with hl
              subst hl
              refine ⟨ms, addr, rest, ⟨some addr, some ⟨0, c.wsPort⟩, some ⟨⟨addr, none, true, false⟩, names⟩,
                some ⟨⟨⟨0, c.wsPort⟩, none, false, true⟩, names⟩, none⟩, rfl, rfl, ?_, rfl, rfl, rfl⟩
              simp only [serve, buildModules, hmm, hno, Res.bind, if_true]
              simp [start, buildWsHttp, ha, buildServer, Except.bind, Except.map, startWsHttp]

/-! ## Cases -/

namespace RpcServersCases

/-- An operating system that lets every address be used once. -/
def os : Bind := fun taken a => if a ∈ taken then none else some a

/-- A node that runs everything but the state network, HTTP at 127.0.0.1:80 for `web3` and `discv5`, WebSocket at its
default port for everything standard, and IPC. -/
def config : Config :=
  ⟨true, some "http://a,http://b".toList, some ⟨2130706433, 80⟩, true, none, none, true, none⟩

def selections : Selections := ⟨some (.selection [.web3, .discv5]), some .standard, some (.selection [.eth])⟩

def handlers : Handlers := ⟨true, true, false⟩

theorem servable : ¬ ∃ sel ∈ [selections.http, selections.ws, selections.ipc], Unservable handlers sel := by
  simp only [selections, List.mem_cons, List.not_mem_nil, or_false, exists_eq_or_imp, exists_eq_left, not_or]
  refine ⟨?_, ?_, ?_⟩
  · simp [Unservable, Repeats, Picks, Selected, Runs]
  · simp only [Unservable, Repeats, Picks, Selected, not_or, not_exists, not_and, Classical.not_not]
    refine ⟨by simp, ?_⟩
    rintro m ⟨s, hs, hm⟩
    injection hs with hs; subst hs
    cases m <;> simp_all [Selected, Runs, handlers]
  · simp [Unservable, Repeats, Picks, Selected, Runs, handlers]

theorem separate : ¬ Shared config := fun h => by cases h.2.2

theorem runs : ∃ hd, serve os (fun _ => true) handlers config selections = .running hd := by
  refine (C110_starts ..).2 ⟨servable, fun h => absurd h separate, fun _ => ⟨?_, ?_, [⟨0, 8546⟩], ?_, ?_⟩, fun _ _ => rfl⟩
  · intro _ d hd; cases hd
  · intro _
    exact (createCors_ok _).1 ⟨.list ["http://a".toList, "http://b".toList], by decide +kernel⟩
  · rw [if_pos (show config.ws = true from rfl)]; exact ⟨⟨0, 8546⟩, by decide, rfl⟩
  · intro _; decide

example : ∃ hd, serve os (fun _ => true) handlers config selections = .running hd ∧
    Answers hd.http "web3_clientVersion".toList ∧ ¬ Answers hd.http "eth_getBalance".toList ∧
    Answers hd.ws "eth_getBalance".toList ∧ hd.wsLocal = some ⟨0, 8546⟩ ∧
    ∃ r, hd.http = some r ∧ Allowed r "http://b".toList ∧ ¬ Allowed r "http://c".toList := by
  obtain ⟨hd, hr⟩ := runs
  have ha := C110_answers _ _ _ _ _ hd hr
  have hmem : Answers hd.http "web3_clientVersion".toList :=
    (ha _).1.2 ⟨rfl, .web3, ⟨_, rfl, by simp [Selected]⟩, by decide⟩
  have hws : Answers hd.ws "eth_getBalance".toList :=
    (ha _).2.1.2 ⟨rfl, .eth, ⟨_, rfl, by simp [Selected]⟩, by decide⟩
  refine ⟨hd, hr, hmem, ?_, hws, ?_, ?_⟩
  · intro hc
    obtain ⟨-, m, ⟨s, hs, hm⟩, hx⟩ := (ha _).1.1 hc
    injection hs with hs; subst hs
    simp only [Selected, List.mem_cons, List.not_mem_nil, or_false] at hm
    rcases hm with rfl | rfl
    · exact absurd hx (by decide)
    · exact absurd hx (by decide)
  · obtain ⟨r, hq, -⟩ := hws
    rw [(C110_reported_partial _ _ _ _ _ hd hr).2 r hq]
    exact (((C110_where_partial _ _ _ _ _ hd hr).2.1 separate).1 r hq).1.symm ▸ rfl
  · obtain ⟨r, hq, -⟩ := hmem
    have ho := fun o => (C110_origins_partial _ _ _ _ _ hd hr o).1 r hq (Or.inl separate)
    have hk : createCors "http://a,http://b".toList = .ok (.list ["http://a".toList, "http://b".toList]) := by decide +kernel
    have hl : ∀ o, LetsIn config.httpCors o ↔ Cors.allows (.list ["http://a".toList, "http://b".toList]) o = true := by
      intro o
      rw [createCors_allows hk]
      constructor
      · rintro ⟨d, hd, h⟩; injection hd with hd; subst hd; exact h
      · intro h; exact ⟨_, rfl, h⟩
    refine ⟨r, hq, (ho _).2 ((hl _).2 (by decide)), fun hc => ?_⟩
    exact absurd ((hl _).1 ((ho _).1 hc)) (by decide)

/-- One address for both, with the same modules in another order. -/
example : ∃ hd, serve os (fun _ => true) handlers ⟨true, none, some ⟨0, 80⟩, true, none, some ⟨0, 80⟩, false, none⟩
    ⟨some (.selection [.web3, .discv5]), some (.selection [.discv5, .web3]), none⟩ = .running hd := by
  refine (C110_starts ..).2 ⟨?_, fun _ => ⟨?_, ?_, ?_, by decide⟩, fun h => absurd ⟨rfl, rfl, rfl⟩ h, by simp⟩
  · simp only [List.mem_cons, List.not_mem_nil, or_false, exists_eq_or_imp, exists_eq_left, not_or]
    refine ⟨?_, ?_, ?_⟩ <;> simp [Unservable, Repeats, Picks, Selected, Runs]
  · intro a b h; cases h
  · intro m; simp [Picks, Selected, or_comm]
  · intro d h; cases h

/-- One address for both, with different modules. -/
example : serve os (fun _ => true) handlers ⟨true, none, some ⟨0, 80⟩, true, none, some ⟨0, 80⟩, false, none⟩
    ⟨some (.selection [.web3, .discv5]), some (.selection [.web3]), none⟩ = .refused .conflictingModules := by
  refine (C110_conflict _ _ _ _ _ ?_ ⟨rfl, rfl, rfl⟩).2 ?_ ?_ (by decide) ?_
  · simp only [List.mem_cons, List.not_mem_nil, or_false, exists_eq_or_imp, exists_eq_left, not_or]
    refine ⟨?_, ?_, ?_⟩ <;> simp [Unservable, Repeats, Picks, Selected, Runs]
  · intro a b h; cases h
  · intro d h; cases h
  · intro h
    have := (h .discv5).1 ⟨_, rfl, by simp [Selected]⟩
    obtain ⟨s, hs, hm⟩ := this
    injection hs with hs; subst hs
    simp [Selected] at hm

example : createCors "*,http://a".toList = .error .wildcard := by decide +kernel
example : createCors " * ".toList = .ok .any := by decide +kernel
example : createCors "http://a,\n".toList = .error .header := by decide +kernel

end RpcServersCases

end Verif.Props
