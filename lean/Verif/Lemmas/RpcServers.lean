import Verif.Lemmas.NodeConfig
import Verif.Props.RpcServersSpec

namespace Verif.RpcServers
open Verif.NodeConfig (Str Addr Handlers Module methods moduleFor split identical allMethods mergeAll portalMethods
  mergeAll_eq names_nodup_iff methods_nodup split_append)
open Verif.E2store (Res)
open Verif.Props.RpcServersSpec

/-! ## Lists with separators -/

theorem split_none (c : Char) : ∀ p : Str, c ∉ p → split c p = [p]
  | [], _ => rfl
  | d :: p, h => by
    have ih := split_none c p (by grind)
    unfold split
    rw [if_neg (by grind), ih]

theorem split_mid (c : Char) : ∀ a b : Str, split c (a ++ c :: b) = split c a ++ split c b
  | [], b => by simp [split]
  | d :: a, b => by
    have ih := split_mid c a b
    by_cases h : d = c
    · subst h
      show split d (d :: (a ++ d :: b)) = _
      rw [split, if_pos rfl, ih]
      conv => rhs; rw [split]
      simp
    · show split c (d :: (a ++ c :: b)) = _
      rw [split, if_neg h, ih]
      conv => rhs; rw [split]
      rw [if_neg h]
      cases hs : split c a with
      | nil => exact absurd hs (Verif.NodeConfig.split_ne_nil c a)
      | cons p ps => simp

theorem split_parts (c : Char) : ∀ d p ps, split c d = p :: ps →
    (c ∉ p ∧ ∃ b, d = p ++ b ∧ (b = [] ∨ b.head? = some c)) ∧
      ∀ o ∈ ps, c ∉ o ∧ ∃ a b, d = a ++ c :: o ++ b ∧ (b = [] ∨ b.head? = some c)
  | [], p, ps, h => by
    simp only [split, List.cons.injEq] at h
    obtain ⟨rfl, rfl⟩ := h
    exact ⟨⟨by simp, [], by simp, Or.inl rfl⟩, by simp⟩
  | x :: d, p, ps, h => by
    unfold split at h
    by_cases hx : x = c
    · rw [if_pos hx] at h
      injection h with h1 h2
      subst h1; subst hx
      refine ⟨⟨by simp, x :: d, rfl, Or.inr rfl⟩, ?_⟩
      intro o ho
      cases hs : split x d with
      | nil => exact absurd hs (Verif.NodeConfig.split_ne_nil x d)
      | cons q qs =>
        obtain ⟨⟨h1, b, h3, h4⟩, h5⟩ := split_parts x d q qs hs
        rw [← h2, hs] at ho
        rcases List.mem_cons.1 ho with rfl | ho
        · exact ⟨h1, [], b, by simp [h3], h4⟩
        · obtain ⟨h6, a, b, h7, h8⟩ := h5 o ho
          exact ⟨h6, x :: a, b, by simp [h7], h8⟩
    · rw [if_neg hx] at h
      cases hs : split c d with
      | nil => exact absurd hs (Verif.NodeConfig.split_ne_nil c d)
      | cons q qs =>
        obtain ⟨⟨h1, b, h3, h4⟩, h5⟩ := split_parts c d q qs hs
        rw [hs] at h
        injection h with h6 h7
        subst h6; subst h7
        refine ⟨⟨by simp only [List.mem_cons, not_or]; exact ⟨fun h => hx h.symm, h1⟩, b, by simp [h3], h4⟩, ?_⟩
        intro o ho
        obtain ⟨h8, a, b, h9, h10⟩ := h5 o ho
        exact ⟨h8, x :: a, b, by simp [h9], h10⟩

theorem mem_split_iff (d e : Str) : e ∈ split ',' d ↔ Entry d e := by
  constructor
  · intro h
    cases hs : split ',' d with
    | nil => exact absurd hs (Verif.NodeConfig.split_ne_nil _ d)
    | cons p ps =>
      obtain ⟨⟨h1, b, h3, h4⟩, h5⟩ := split_parts ',' d p ps hs
      rw [hs] at h
      rcases List.mem_cons.1 h with rfl | h
      · exact ⟨h1, [], b, by simp [h3], Or.inl rfl, h4⟩
      · obtain ⟨h6, a, b, h7, h8⟩ := h5 e h
        exact ⟨h6, a ++ [','], b, by simp [h7], Or.inr (by simp), h8⟩
  · rintro ⟨he, a, b, rfl, ha, hb⟩
    have h1 : e ∈ split ',' (e ++ b) := by
      rcases hb with rfl | hb
      · rw [List.append_nil, split_none _ _ he]; simp
      · cases b with
        | nil => simp at hb
        | cons x b =>
          simp only [List.head?_cons, Option.some.injEq] at hb
          subst hb
          rw [split_append _ _ he]; simp
    rcases ha with rfl | ha
    · simpa using h1
    · obtain ⟨a, rfl⟩ : ∃ a', a = a' ++ [','] := by
        cases hr : a.reverse with
        | nil => simp at hr; subst hr; simp at ha
        | cons x r =>
          have : a = r.reverse ++ [x] := by
            have := congrArg List.reverse hr; simpa using this
          subst this
          simp at ha; subst ha; exact ⟨_, rfl⟩
      have : a ++ [','] ++ e ++ b = a ++ ',' :: (e ++ b) := by simp
      rw [this, split_mid]
      exact List.mem_append.2 (Or.inr h1)

/-! ## White space -/

theorem dropWhile_all {p : α → Bool} : ∀ (a t : List α), (∀ x ∈ a, p x = true) →
    (∀ x, t.head? = some x → p x = false) → (a ++ t).dropWhile p = t
  | [], t, _, ht => by
    cases t with
    | nil => rfl
    | cons x t => simp [ht x rfl]
  | x :: a, t, ha, ht => by
    simp only [List.cons_append, List.dropWhile_cons, ha x (by simp), if_true]
    exact dropWhile_all a t (fun y hy => ha y (by simp [hy])) ht

theorem dropWhile_split {p : α → Bool} : ∀ s : List α,
    ∃ a, s = a ++ s.dropWhile p ∧ (∀ x ∈ a, p x = true) ∧ ∀ x, (s.dropWhile p).head? = some x → p x = false
  | [] => ⟨[], rfl, by simp, by simp⟩
  | x :: s => by
    by_cases h : p x = true
    · obtain ⟨a, h1, h2, h3⟩ := dropWhile_split (p := p) s
      refine ⟨x :: a, ?_, ?_, ?_⟩
      · simp only [List.dropWhile_cons, h, if_true, List.cons_append]; rw [← h1]
      · intro y hy
        rcases List.mem_cons.1 hy with rfl | hy
        · exact h
        · exact h2 y hy
      · simpa only [List.dropWhile_cons, h, if_true] using h3
    · refine ⟨[], by simp [h], by simp, ?_⟩
      intro y hy
      simp only [List.dropWhile_cons, h] at hy
      simp at hy; subst hy; simpa using h

theorem trim_iff (s t : Str) : trim s = t ↔
    ∃ a b, s = a ++ t ++ b ∧ (∀ c ∈ a, isWhite c = true) ∧ (∀ c ∈ b, isWhite c = true) ∧
      (∀ c, t.head? = some c → isWhite c = false) ∧ ∀ c, t.getLast? = some c → isWhite c = false := by
  constructor
  · intro h
    obtain ⟨a, h1, h2, h3⟩ := dropWhile_split (p := isWhite) s
    obtain ⟨b, h4, h5, h6⟩ := dropWhile_split (p := isWhite) (s.dropWhile isWhite).reverse
    have ht : s.dropWhile isWhite = t ++ b.reverse := by
      have := congrArg List.reverse h4
      rw [List.reverse_reverse, List.reverse_append] at this
      rw [this, ← h]; rfl
    refine ⟨a, b.reverse, by rw [h1, ht]; simp, h2, by simpa using h5, ?_, ?_⟩
    · intro c hc
      apply h3 c
      rw [ht]
      cases t with
      | nil => simp at hc
      | cons x t => simpa using hc
    · intro c hc
      apply h6 c
      rw [← h] at hc
      unfold trim at hc
      simpa using hc
  · rintro ⟨a, b, rfl, ha, hb, h1, h2⟩
    unfold trim
    by_cases ht : t = []
    · subst ht
      have h3 : (a ++ [] ++ b).dropWhile isWhite = [] := by
        have := dropWhile_all (p := isWhite) (a ++ b) [] (by
          intro c hc; rcases List.mem_append.1 hc with h | h
          · exact ha c h
          · exact hb c h) (by simp)
        simpa using this
      rw [h3]; rfl
    · have h3 : (a ++ t ++ b).dropWhile isWhite = t ++ b := by
        rw [List.append_assoc]
        apply dropWhile_all _ _ ha
        intro c hc
        apply h1
        cases t with
        | nil => exact absurd rfl ht
        | cons x t => simpa using hc
      rw [h3, List.reverse_append, dropWhile_all b.reverse t.reverse (by simpa using hb) (by simpa using h2)]
      simp

theorem white_star : isWhite '*' = false := by decide

theorem wild_iff (d : Str) : trim d = ['*'] ↔ Wild d := by
  rw [trim_iff]
  constructor
  · rintro ⟨a, b, h, ha, hb, _⟩
    exact ⟨a, b, by simpa using h, ha, hb⟩
  · rintro ⟨a, b, h, ha, hb⟩
    refine ⟨a, b, by simpa using h, ha, hb, ?_, ?_⟩
    · intro c hc; simp at hc; subst hc; exact white_star
    · intro c hc; simp at hc; subst hc; exact white_star

theorem headerOk_iff (e : Str) : headerOk e = true ↔ Clean e := by
  unfold headerOk Clean
  simp [List.all_eq_true]

/-! ## Origins -/

theorem createCors_ok (d : Str) : (∃ k, createCors d = .ok k) ↔ GoodCors (some d) := by
  unfold createCors GoodCors
  constructor
  · rintro ⟨k, h⟩ d' hd
    cases hd
    split at h
    · next hw => exact Or.inl ((wild_iff d).1 hw)
    · split at h
      · cases h
      · next hs =>
        split at h
        · next ha =>
          right
          intro e he
          have he' := (mem_split_iff d e).2 he
          refine ⟨?_, (headerOk_iff e).1 (List.all_eq_true.1 ha e he')⟩
          intro hc
          apply hs
          exact List.any_eq_true.2 ⟨e, he', by simp [hc]⟩
        · cases h
  · intro h
    split
    · exact ⟨_, rfl⟩
    · next hw =>
      rcases h d rfl with h | h
      · exact absurd ((wild_iff d).2 h) hw
      · rw [if_neg, if_pos]
        · exact ⟨_, rfl⟩
        · exact List.all_eq_true.2 fun e he => (headerOk_iff e).2 (h e ((mem_split_iff d e).1 he)).2
        · intro hc
          obtain ⟨e, he, he'⟩ := List.any_eq_true.1 hc
          exact (h e ((mem_split_iff d e).1 he)).1 (by simpa using he')

theorem createCors_allows {d : Str} {k : Cors} (h : createCors d = .ok k) (o : Str) :
    k.allows o = true ↔ Wild d ∨ Entry d o := by
  unfold createCors at h
  split at h
  · next hw =>
    injection h with h; subst h
    simp [Cors.allows, (wild_iff d).1 hw]
  · next hw =>
    split at h
    · cases h
    · split at h
      · injection h with h; subst h
        have hw' : ¬ Wild d := fun hc => hw ((wild_iff d).2 hc)
        simp only [Cors.allows, List.contains_iff_mem, mem_split_iff, hw', false_or]
      · cases h

/-! ## Modules -/

theorem mem_modules (s : Selection) (m : Module) : m ∈ s.modules ↔ Selected s m := by
  cases s with
  | all => cases m <;> simp [Selection.modules, Selected]
  | standard => cases m <;> simp [Selection.modules, Selected]
  | selection ms => rfl

theorem portalMethods_eq (h : Handlers) (m : Module) :
    (Runs h m → portalMethods h m = .ok (methods m)) ∧ (¬ Runs h m → portalMethods h m = .panic) := by
  cases m <;> simp +contextual [Runs, portalMethods]

theorem allMethods_runs (h : Handlers) : ∀ ms : List Module, (∀ m ∈ ms, Runs h m) →
    allMethods h ms = .ok (ms.map methods)
  | [], _ => rfl
  | m :: ms, hr => by
    unfold allMethods
    rw [(portalMethods_eq h m).1 (hr m (by simp)), allMethods_runs h ms (fun x hx => hr x (by simp [hx]))]
    rfl

theorem allMethods_fails (h : Handlers) : ∀ ms : List Module, (∃ m ∈ ms, ¬ Runs h m) →
    allMethods h ms = .panic
  | [], hr => by simp at hr
  | m :: ms, hr => by
    unfold allMethods
    by_cases hm : Runs h m
    · obtain ⟨x, hx, hx'⟩ := hr
      rw [(portalMethods_eq h m).1 hm, allMethods_fails h ms ⟨x, by
        rcases List.mem_cons.1 hx with rfl | hx
        · exact absurd hm hx'
        · exact hx, hx'⟩]
      rfl
    · rw [(portalMethods_eq h m).2 hm]; rfl

theorem moduleFor_runs (h : Handlers) (ms : List Module) :
    ((∀ m ∈ ms, Runs h m) → ms.Nodup → moduleFor h ms = .ok (ms.flatMap methods)) ∧
    (¬ ((∀ m ∈ ms, Runs h m) ∧ ms.Nodup) → moduleFor h ms = .panic) := by
  have key : (∀ m ∈ ms, Runs h m) →
      moduleFor h ms = if ms.Nodup then .ok (ms.flatMap methods) else .panic := by
    intro hr
    unfold moduleFor
    rw [allMethods_runs h ms hr]
    show mergeAll _ [] = _
    rw [mergeAll_eq _ _ List.nodup_nil]
    · rw [List.nil_append]
      have h1 : (ms.map methods).flatten = ms.flatMap methods := by rw [List.flatMap_def]
      rw [h1]
      by_cases hn : ms.Nodup
      · rw [if_pos hn, if_pos ((names_nodup_iff ms).2 hn)]
      · rw [if_neg hn, if_neg (fun hc => hn ((names_nodup_iff ms).1 hc))]
    · intro l hl
      obtain ⟨m, _, rfl⟩ := List.mem_map.1 hl
      exact methods_nodup m
  constructor
  · intro hr hn; rw [key hr, if_pos hn]
  · intro hn
    by_cases hr : ∀ m ∈ ms, Runs h m
    · rw [key hr, if_neg (fun hc => hn ⟨hr, hc⟩)]
    · unfold moduleFor
      rw [allMethods_fails h ms]
      · rfl
      · grind

/-- What `maybe_module` gives when it does not abort. -/
def namesOf (sel : Option Selection) : Option (List Str) := sel.map fun s => s.modules.flatMap methods

theorem mem_namesOf (sel : Option Selection) (x : Str) :
    (∃ names, namesOf sel = some names ∧ x ∈ names) ↔ Chosen sel x := by
  cases sel with
  | none => simp [namesOf, Chosen, Picks]
  | some s => simp [namesOf, Chosen, Picks, mem_modules, List.mem_flatMap]

theorem modules_nodup (s : Selection) : s.modules.Nodup ↔ ¬ Repeats (some s) := by
  cases s with
  | all => simp [Selection.modules, Repeats]
  | standard => simp [Selection.modules, Repeats]
  | selection ms => simp [Selection.modules, Repeats]

theorem maybeModule_eq (h : Handlers) (sel : Option Selection) :
    (¬ Unservable h sel → maybeModule h sel = .ok (namesOf sel)) ∧
    (Unservable h sel → maybeModule h sel = .panic) := by
  cases sel with
  | none => simp [Unservable, Repeats, Picks, maybeModule, namesOf]
  | some s =>
    have hp : ∀ m, Picks (some s) m ↔ m ∈ s.modules := by intro m; simp [Picks, mem_modules]
    constructor
    · intro hu
      unfold Unservable at hu
      simp only [not_or, not_exists, not_and, Classical.not_not] at hu
      show (moduleFor h s.modules).map some = _
      rw [(moduleFor_runs h s.modules).1 (fun m hm => hu.2 m ((hp m).2 hm)) ((modules_nodup s).2 hu.1)]
      rfl
    · intro hu
      show (moduleFor h s.modules).map some = _
      rw [(moduleFor_runs h s.modules).2]
      · rfl
      · rintro ⟨h1, h2⟩
        rcases hu with hu | ⟨m, hm, hm'⟩
        · exact (modules_nodup s).1 h2 hu
        · exact hm' (h1 m ((hp m).1 hm))

theorem buildModules_eq (h : Handlers) (s : Selections) :
    ((¬ ∃ sel ∈ [s.http, s.ws, s.ipc], Unservable h sel) →
      buildModules h s = .ok ⟨namesOf s.http, namesOf s.ws, namesOf s.ipc⟩) ∧
    ((∃ sel ∈ [s.http, s.ws, s.ipc], Unservable h sel) → buildModules h s = .panic) := by
  have e1 := maybeModule_eq h s.http
  have e2 := maybeModule_eq h s.ws
  have e3 := maybeModule_eq h s.ipc
  by_cases h1 : Unservable h s.http
  · unfold buildModules; simp [h1, e1.2 h1, Res.bind]
  · by_cases h2 : Unservable h s.ws
    · unfold buildModules; simp [h2, e1.1 h1, e2.2 h2, Res.bind]
    · by_cases h3 : Unservable h s.ipc
      · unfold buildModules; simp [h3, e1.1 h1, e2.1 h2, e3.2 h3, Res.bind]
      · unfold buildModules; simp [h1, h2, h3, e1.1 h1, e2.1 h2, e3.1 h3, Res.bind]

theorem areIdentical_iff (s : Selections) : areIdentical s.http s.ws = true ↔ SameModules s := by
  obtain ⟨a, b, _⟩ := s
  unfold SameModules
  have he : ∀ x : Selection, x.isEmpty = true ↔ ∀ m, ¬ Selected x m := by
    intro x
    cases x with
    | all => simp only [Selection.isEmpty, Selected]; exact ⟨nofun, fun h => absurd trivial (h .web3)⟩
    | standard =>
      simp only [Selection.isEmpty, Selected]
      constructor
      · simp
      · intro h; exact absurd (h .web3) (by simp)
    | selection ms =>
      simp only [Selection.isEmpty, Selected]
      cases ms with
      | nil => simp
      | cons x ms => simp only [List.isEmpty_cons]; constructor
                     · simp
                     · intro h; exact absurd (h x) (by simp)
  cases a with
  | none => cases b with
    | none => simp [areIdentical]
    | some b => simp [areIdentical, Picks, he]
  | some a => cases b with
    | none => simp [areIdentical, Picks, he]
    | some b =>
      simp only [areIdentical, identical, Picks, Bool.and_eq_true, List.all_eq_true, List.contains_iff_mem,
        mem_modules, Option.some.injEq, exists_eq_left']
      constructor
      · rintro ⟨h1, h2⟩ m; exact ⟨h1 m, h2 m⟩
      · intro h; exact ⟨fun m => (h m).1, fun m => (h m).2⟩

/-! ## Servers -/

theorem buildServer_ok {bind : Bind} {taken : List Addr} {addr : Addr} {domains : Option Str} {http ws : Bool}
    {s : Server} (h : buildServer bind taken addr domains http ws = .ok s) :
    bind taken addr = some s.addr ∧ s.http = http ∧ s.ws = ws ∧
      (∀ o, (∃ k, s.cors = some k ∧ k.allows o = true) ↔ LetsIn domains o) := by
  unfold buildServer at h
  cases domains with
  | none =>
    simp only [Except.bind] at h
    cases hb : bind taken addr with
    | none => rw [hb] at h; cases h
    | some l =>
      rw [hb] at h
      injection h with h; subst h
      simp [LetsIn]
  | some d =>
    simp only at h
    cases hk : createCors d with
    | error w => rw [hk] at h; cases h
    | ok k =>
      rw [hk] at h
      simp only [Except.map, Except.bind] at h
      cases hb : bind taken addr with
      | none => rw [hb] at h; cases h
      | some l =>
        rw [hb] at h
        injection h with h; subst h
        simp [LetsIn, createCors_allows hk]

theorem buildServer_iff {bind : Bind} {taken : List Addr} {addr : Addr} {domains : Option Str} {http ws : Bool} :
    (∃ s, buildServer bind taken addr domains http ws = .ok s) ↔ GoodCors domains ∧ bind taken addr ≠ none := by
  unfold buildServer
  cases domains with
  | none =>
    simp only [Except.bind]
    cases hb : bind taken addr with
    | none => simp
    | some l => simp [GoodCors]
  | some d =>
    simp only
    cases hk : createCors d with
    | error w =>
      have : ¬ GoodCors (some d) := by
        intro hc
        obtain ⟨k, hk'⟩ := (createCors_ok d).2 hc
        rw [hk] at hk'; cases hk'
      simp [Except.map, Except.bind, this]
    | ok k =>
      have : GoodCors (some d) := (createCors_ok d).1 ⟨k, hk⟩
      simp only [Except.map, Except.bind]
      cases hb : bind taken addr with
      | none => simp
      | some l => simp [this]

theorem sharedCors_ok (ws http : Option Str) :
    (SameCors ws http → sharedCors ws http = .ok (ws.or http)) ∧
    (¬ SameCors ws http → sharedCors ws http = .error .conflictingCors) := by
  cases ws with
  | none => cases http <;> simp [sharedCors, SameCors]
  | some a => cases http with
    | none => simp [sharedCors, SameCors]
    | some b => simp +contextual [sharedCors, SameCors]

/-- What servers for both transports come to. -/
theorem buildWsHttp_shared {bind : Bind} {c : Config} (hs : Shared c) {w : WsHttp}
    (h : buildWsHttp bind c = .ok w) :
    SameCors c.wsCors c.httpCors ∧ ∃ s, buildServer bind [] (httpAt c) (c.wsCors.or c.httpCors) true true = .ok s ∧
      w = ⟨some s.addr, some s.addr, .samePort s⟩ := by
  unfold buildWsHttp at h
  simp only [if_pos (show c.httpAddr = c.wsAddr ∧ c.http = true ∧ c.ws = true from ⟨hs.2.2, hs.1, hs.2.1⟩)] at h
  by_cases hc : SameCors c.wsCors c.httpCors
  · rw [(sharedCors_ok _ _).1 hc] at h
    change (buildServer bind [] (httpAt c) (c.wsCors.or c.httpCors) true true).map _ = _ at h
    cases hb : buildServer bind [] (httpAt c) (c.wsCors.or c.httpCors) true true with
    | error e => rw [hb] at h; cases h
    | ok s =>
      rw [hb] at h
      injection h with h
      exact ⟨hc, s, rfl, h.symm⟩
  · rw [(sharedCors_ok _ _).2 hc] at h; cases h

theorem buildWsHttp_shared_ok {bind : Bind} {c : Config} (hs : Shared c) (hc : SameCors c.wsCors c.httpCors) {s : Server}
    (h : buildServer bind [] (httpAt c) (c.wsCors.or c.httpCors) true true = .ok s) :
    buildWsHttp bind c = .ok ⟨some s.addr, some s.addr, .samePort s⟩ := by
  unfold buildWsHttp
  simp only [if_pos (show c.httpAddr = c.wsAddr ∧ c.http = true ∧ c.ws = true from ⟨hs.2.2, hs.1, hs.2.1⟩)]
  rw [(sharedCors_ok _ _).1 hc]
  change (buildServer bind [] (httpAt c) (c.wsCors.or c.httpCors) true true).map _ = _
  rw [h]; rfl

/-- The server of one transport, if it is asked for. -/
def single (on : Bool) (bind : Bind) (taken : List Addr) (addr : Addr) (domains : Option Str) (http ws : Bool) :
    Except Why (Option Server) :=
  if on then (buildServer bind taken addr domains http ws).map some else .ok none

theorem single_ok {on : Bool} {bind : Bind} {taken : List Addr} {addr : Addr} {domains : Option Str}
    {http ws : Bool} {r : Option Server} (h : single on bind taken addr domains http ws = .ok r) :
    (on = true ∧ ∃ s, r = some s ∧ buildServer bind taken addr domains http ws = .ok s) ∨ (on = false ∧ r = none) := by
  unfold single at h
  cases on with
  | false => exact Or.inr ⟨rfl, by injection h with h; exact h.symm⟩
  | true =>
    left
    simp only [if_true] at h
    cases hb : buildServer bind taken addr domains http ws with
    | error e => rw [hb] at h; cases h
    | ok s => rw [hb] at h; injection h with h; exact ⟨rfl, s, h.symm, rfl⟩

theorem buildWsHttp_separate {bind : Bind} {c : Config} (hs : ¬ Shared c) :
    buildWsHttp bind c = (single c.ws bind [] (wsAt c) c.wsCors false true).bind fun ws =>
      (single c.http bind (ws.map (·.addr)).toList (httpAt c) c.httpCors true false).bind fun http =>
        .ok ⟨http.map (·.addr), ws.map (·.addr), .differentPort http ws⟩ := by
  unfold buildWsHttp
  simp only [if_neg (show ¬ (c.httpAddr = c.wsAddr ∧ c.http = true ∧ c.ws = true) from
    fun h => hs ⟨h.2.1, h.2.2, h.1⟩)]
  rfl

theorem buildWsHttp_separate_ok {bind : Bind} {c : Config} (hs : ¬ Shared c) {w : WsHttp}
    (h : buildWsHttp bind c = .ok w) : ∃ http ws,
      single c.ws bind [] (wsAt c) c.wsCors false true = .ok ws ∧
      single c.http bind (ws.map (·.addr)).toList (httpAt c) c.httpCors true false = .ok http ∧
      w = ⟨http.map (·.addr), ws.map (·.addr), .differentPort http ws⟩ := by
  rw [buildWsHttp_separate hs] at h
  cases h1 : single c.ws bind [] (wsAt c) c.wsCors false true with
  | error e => rw [h1] at h; cases h
  | ok ws =>
    rw [h1] at h
    simp only [Except.bind] at h
    cases h2 : single c.http bind (ws.map (·.addr)).toList (httpAt c) c.httpCors true false with
    | error e => rw [h2] at h; cases h
    | ok http =>
      rw [h2] at h
      injection h with h
      exact ⟨http, ws, rfl, h2, h.symm⟩

theorem startWsHttp_same {s : Selections} {m : Modules} {b : Server} {r : Option Running × Option Running}
    (h : startWsHttp s m (.samePort b) = .ok r) : SameModules s ∧
      r = ((m.http.or m.ws).map (⟨b, ·⟩), (m.http.or m.ws).map (⟨b, ·⟩)) := by
  simp only [startWsHttp] at h
  by_cases hid : areIdentical s.http s.ws = true
  · refine ⟨(areIdentical_iff s).1 hid, ?_⟩
    simp only [hid, if_true] at h
    cases hn : m.http.or m.ws with
    | none => rw [hn] at h; injection h with h; exact h.symm
    | some names => rw [hn] at h; injection h with h; exact h.symm
  · simp [hid] at h

theorem startWsHttp_different {s : Selections} {m : Modules} {http ws : Option Server}
    {r : Option Running × Option Running} (h : startWsHttp s m (.differentPort http ws) = .ok r) :
    r = (http.bind fun server => m.http.map fun names => ⟨server, names⟩,
      ws.bind fun server => m.ws.map fun names => ⟨server, names⟩) := by
  simp only [startWsHttp] at h
  injection h with h
  exact h.symm

/-- What starting comes to. -/
theorem start_ok {bind : Bind} {ipcStarts : Str → Bool} {c : Config} {s : Selections} {m : Modules} {hd : Handle}
    (h : start bind ipcStarts c s m = .ok hd) : ∃ w r, buildWsHttp bind c = .ok w ∧
      startWsHttp s m w.servers = .ok r ∧ hd.httpLocal = w.httpLocal ∧ hd.wsLocal = w.wsLocal ∧ hd.http = r.1 ∧
      hd.ws = r.2 ∧ hd.ipc = (if c.ipc then m.ipc.map fun names => (ipcAt c, names) else none) ∧
      (c.ipc = true → m.ipc ≠ none → ipcStarts (ipcAt c) = true) := by
  unfold start at h
  cases h1 : buildWsHttp bind c with
  | error e => rw [h1] at h; cases h
  | ok w =>
    rw [h1] at h
    simp only [Except.bind] at h
    cases h2 : startWsHttp s m w.servers with
    | error e => rw [h2] at h; cases h
    | ok r =>
      rw [h2] at h
      refine ⟨w, r, rfl, h2, ?_⟩
      cases hi : c.ipc with
      | false =>
        simp only [hi] at h
        simp at h
        subst h
        simp
      | true =>
        simp only [hi, if_true] at h
        cases hm : m.ipc with
        | none => rw [hm] at h; simp at h; subst h; simp
        | some names =>
          rw [hm] at h
          simp only at h
          split at h
          · next hp =>
            injection h with h; subst h
            exact ⟨rfl, rfl, rfl, rfl, rfl, fun _ _ => hp⟩
          · cases h

theorem start_runs {bind : Bind} {ipcStarts : Str → Bool} {c : Config} {s : Selections} {m : Modules} {w : WsHttp}
    {r : Option Running × Option Running} (h1 : buildWsHttp bind c = .ok w)
    (h2 : startWsHttp s m w.servers = .ok r) (h3 : c.ipc = true → m.ipc ≠ none → ipcStarts (ipcAt c) = true) :
    start bind ipcStarts c s m = .ok ⟨w.httpLocal, w.wsLocal, r.1, r.2,
      if c.ipc then m.ipc.map fun names => (ipcAt c, names) else none⟩ := by
  unfold start
  rw [h1]
  simp only [Except.bind]
  rw [h2]
  simp only
  cases hi : c.ipc with
  | false => simp
  | true =>
    simp only [if_true]
    cases hm : m.ipc with
    | none => simp
    | some names =>
      have := h3 hi (by rw [hm]; simp)
      have hp : c.ipcEndpoint.getD defaultIpcPath = ipcAt c := rfl
      rw [hp]
      simp only [this, if_true, Option.map_some]

/-- Servers run: nothing aborted, and starting went through. -/
theorem serve_running {bind : Bind} {ipcStarts : Str → Bool} {h : Handlers} {c : Config} {s : Selections}
    {hd : Handle} : serve bind ipcStarts h c s = .running hd ↔
      (¬ ∃ sel ∈ [s.http, s.ws, s.ipc], Unservable h sel) ∧
      start bind ipcStarts c s ⟨namesOf s.http, namesOf s.ws, namesOf s.ipc⟩ = .ok hd := by
  unfold serve
  by_cases hu : ∃ sel ∈ [s.http, s.ws, s.ipc], Unservable h sel
  · rw [(buildModules_eq h s).2 hu]
    exact ⟨nofun, fun hc => absurd hu hc.1⟩
  · rw [(buildModules_eq h s).1 hu]
    simp only [hu, not_false_eq_true, true_and]
    cases start bind ipcStarts c s ⟨namesOf s.http, namesOf s.ws, namesOf s.ipc⟩ <;> simp

theorem namesOf_none (sel : Option Selection) : namesOf sel = none ↔ sel = none := by
  cases sel <;> simp [namesOf]

end Verif.RpcServers
