import Verif.Lemmas.BridgeCli
import Verif.Props.NodeConfig

/-! # C76: the command line of the bridge -/

namespace Verif.Props
open Verif.BridgeCli
open Verif.Props.BridgeSpec
open Verif.Props.StartSpec (nameOf networkName)
open Verif.Capacity (Subnetwork)
open Verif.Events (Network)
open Verif.E2store (Res)
open Verif.TrieWalker (BridgeId)
open Verif.NodeConfig (split split_append split_none)

theorem single_cut : "single:".toList = "single".toList ++ [':'] := by decide +kernel
theorem singleR_cut : "single:r".toList = "single".toList ++ [':', 'r'] := by decide +kernel
theorem snapshot_cut : "snapshot:".toList = "snapshot".toList ++ [':'] := by decide +kernel

theorem parseMode_colon (a b : List Char) (ha : ':' ∉ a) : parseMode (a ++ ':' :: b) =
    if a = "single".toList then (parseModeType b).map .single
    else if a = "snapshot".toList then
      match HeadGen.parseU64 b with
      | none => .err
      | some n => .ok (.snapshot n)
    else .err := by
  have hne : ∀ w : List Char, ':' ∉ w → a ++ ':' :: b ≠ w := fun w hw h => hw (by rw [← h]; simp)
  unfold parseMode
  rw [if_neg (hne _ (by decide +kernel)), if_neg (hne _ (by decide +kernel)), if_neg (hne _ (by decide +kernel)),
    (cutColon_iff _ a b).2 ⟨ha, rfl⟩]
  rfl

/-- A mode is read exactly from its texts. -/
theorem C76_mode (text : List Char) (m : Mode) : parseMode text = .ok m ↔ ModeText text m := by
  cases hcut : cutColon text with
  | none =>
    have hno : ∀ a b, text ≠ a ++ ':' :: b := by
      intro a b h
      have hmem : ':' ∈ text := by rw [h]; simp
      have : ∀ s : List Char, ':' ∈ s → cutColon s ≠ none := by
        intro s
        induction s with
        | nil => intro h; cases h
        | cons c cs ih =>
          intro hm
          rw [cutColon]
          by_cases hc : c = ':'
          · rw [if_pos hc]; simp
          · rw [if_neg hc]
            have := ih (by rcases List.mem_cons.1 hm with h | h; exact absurd h.symm hc; exact h)
            cases hv : cutColon cs with
            | none => exact absurd hv this
            | some x => simp
      exact this text hmem hcut
    unfold parseMode
    rw [hcut]
    constructor
    · intro h
      split at h
      · next he => cases h; exact he
      · split at h
        · next he => cases h; exact he
        · split at h
          · next he => cases h; exact he
          · cases h
    · intro h
      cases m with
      | latest => rw [if_pos (show text = "latest".toList from h)]
      | e2hs =>
        have : text = "e2hs".toList := h
        subst this
        rw [if_neg (by decide +kernel), if_pos rfl]
      | ephemeralHistory =>
        have : text = "ephemeral-history".toList := h
        subst this
        rw [if_neg (by decide +kernel), if_neg (by decide +kernel), if_pos rfl]
      | single t =>
        cases t with
        | blockRange a b =>
          obtain ⟨x, y, _, _, _, ht⟩ := h
          rw [singleR_cut, List.append_assoc] at ht
          exact absurd ht (hno _ _)
      | snapshot n =>
        obtain ⟨x, _, ht⟩ := h
        rw [snapshot_cut, List.append_assoc] at ht
        exact absurd ht (hno _ _)
  | some ab =>
    obtain ⟨a, b⟩ := ab
    obtain ⟨ha, rfl⟩ := (cutColon_iff _ _ _).1 hcut
    rw [parseMode_colon a b ha]
    have hne : ∀ w : List Char, ':' ∉ w → a ++ ':' :: b ≠ w := fun w hw h => hw (by rw [← h]; simp)
    have cancel : ∀ (w : List Char) (r : List Char), ':' ∉ w → (a ++ ':' :: b = w ++ ':' :: r ↔ a = w ∧ b = r) := by
      intro w r hw
      constructor
      · intro h
        have h1 := (cutColon_iff (a ++ ':' :: b) a b).2 ⟨ha, rfl⟩
        have h2 := (cutColon_iff (a ++ ':' :: b) w r).2 ⟨hw, h⟩
        rw [h1] at h2
        simpa using h2
      · rintro ⟨rfl, rfl⟩
        rfl
    have e1 : ∀ r, "single:r".toList ++ r = "single".toList ++ ':' :: 'r' :: r := by
      intro r; rw [singleR_cut, List.append_assoc]; rfl
    have e2 : ∀ r, "snapshot:".toList ++ r = "snapshot".toList ++ ':' :: r := by
      intro r; rw [snapshot_cut, List.append_assoc]; rfl
    constructor
    · intro h
      split at h
      · next hs =>
        subst hs
        cases hp : parseModeType b with
        | ok t =>
          rw [hp] at h
          cases h
          cases t with
          | blockRange x y =>
            obtain ⟨p, q, h1, h2, h3, rfl⟩ := (parseModeType_ok b x y).1 hp
            exact ⟨p, q, h1, h2, h3, (e1 _).symm⟩
        | err => rw [hp] at h; cases h
        | panic => rw [hp] at h; cases h
      · split at h
        · next hs =>
          subst hs
          split at h
          · cases h
          · next n hn =>
            cases h
            exact ⟨b, (parseU64_iff _ _).1 hn, (e2 _).symm⟩
        · cases h
    · intro h
      cases m with
      | latest => exact absurd h (hne _ (by decide +kernel))
      | e2hs => exact absurd h (hne _ (by decide +kernel))
      | ephemeralHistory => exact absurd h (hne _ (by decide +kernel))
      | single t =>
        cases t with
        | blockRange x y =>
          obtain ⟨p, q, h1, h2, h3, ht⟩ := h
          rw [e1, cancel _ _ (by decide +kernel)] at ht
          obtain ⟨rfl, rfl⟩ := ht
          rw [if_pos rfl, (parseModeType_ok _ x y).2 ⟨p, q, h1, h2, h3, rfl⟩]
          rfl
      | snapshot n =>
        obtain ⟨p, h1, ht⟩ := h
        rw [e2, cancel _ _ (by decide +kernel)] at ht
        obtain ⟨rfl, rfl⟩ := ht
        rw [if_neg (by decide +kernel), if_pos rfl, (parseU64_iff _ _).2 h1]

/-- Every mode can be given: written out, its numbers are read back. -/
theorem C76_mode_written :
    (∀ a b, a ≤ b → b < 2 ^ 64 → parseMode ("single:r".toList ++ (HeadGen.decimal a ++ '-' :: HeadGen.decimal b)) =
      .ok (.single (.blockRange a b))) ∧
    (∀ n, n < 2 ^ 64 → parseMode ("snapshot:".toList ++ HeadGen.decimal n) = .ok (.snapshot n)) :=
  ⟨fun a b h1 h2 => (C76_mode _ _).2 ⟨_, _, numeral_decimal a (by omega), numeral_decimal b h2, h1, rfl⟩,
   fun n h => (C76_mode _ _).2 ⟨_, numeral_decimal n h, rfl⟩⟩

/-- Bad texts are refused with an error but for those of `single:` that do not start with a character of one byte,
and those of `single:r` that are not numbers with dashes between them: they abort.
Missing: that these too are refused with an error, see `C76_mode_aborts_violated`. -/
theorem C76_mode_aborts_partial (text : List Char) : parseMode text = .panic ↔
    (∃ c rest, 1 < c.utf8Size ∧ text = "single:".toList ++ c :: rest) ∨
    (∃ rest, text = "single:r".toList ++ rest ∧
      ¬ ∃ ps, ps ≠ [] ∧ (∀ p ∈ ps, ∃ n, Numeral p n) ∧ rest = between '-' ps) := by
  have e0 : ∀ r, "single:".toList ++ r = "single".toList ++ ':' :: r := by
    intro r; rw [single_cut, List.append_assoc]; rfl
  have e1 : ∀ r, "single:r".toList ++ r = "single".toList ++ ':' :: 'r' :: r := by
    intro r; rw [singleR_cut, List.append_assoc]; rfl
  have hs : ':' ∉ "single".toList := by decide +kernel
  constructor
  · intro h
    unfold parseMode at h
    split at h
    · cases h
    · split at h
      · cases h
      · split at h
        · cases h
        · split at h
          · cases h
          · next a b hcut =>
            obtain ⟨ha, rfl⟩ := (cutColon_iff _ _ _).1 hcut
            split at h
            · next hsg =>
              subst hsg
              have hp : parseModeType b = .panic := by
                cases hp : parseModeType b with
                | ok t => rw [hp] at h; cases h
                | err => rw [hp] at h; cases h
                | panic => rfl
              rcases (parseModeType_panic b).1 hp with ⟨c, rest, hc, rfl⟩ | ⟨rest, rfl, hno⟩
              · exact Or.inl ⟨c, rest, hc, (e0 _).symm⟩
              · exact Or.inr ⟨rest, (e1 _).symm, hno⟩
            · split at h
              · split at h <;> cases h
              · cases h
  · rintro (⟨c, rest, hc, rfl⟩ | ⟨rest, rfl, hno⟩)
    · rw [e0, parseMode_colon _ _ hs, if_pos rfl, (parseModeType_panic _).2 (Or.inl ⟨c, rest, hc, rfl⟩)]
      rfl
    · rw [e1, parseMode_colon _ _ hs, if_pos rfl, (parseModeType_panic _).2 (Or.inr ⟨rest, rfl, hno⟩)]
      rfl

/-- `single:r10-` and `single:r10-x` abort instead of being refused, and so does `single:é`. -/
theorem C76_mode_aborts_violated : parseMode "single:r10-".toList = .panic ∧
    parseMode "single:r10-x".toList = .panic ∧ parseMode "single:é".toList = .panic := by decide +kernel

/-- Block ranges are read exactly from their texts. -/
theorem C76_range (text : List Char) (r : BlockRange) : parseBlockRange text = some r ↔ RangeText text r := by
  unfold parseBlockRange RangeText
  constructor
  · intro h
    split at h
    · next a b hs =>
      split at h
      · cases h
      · next n hn =>
        split at h
        · next hb =>
          cases h
          subst hb
          exact ⟨a, (parseU64_iff _ _).1 hn, split_pair _ _ _ _ hs⟩
        · split at h
          · cases h
          · next m hm =>
            cases h
            exact ⟨a, (parseU64_iff _ _).1 hn, b, (parseU64_iff _ _).1 hm, split_pair _ _ _ _ hs⟩
    · cases h
  · rintro ⟨x, hx, h⟩
    obtain ⟨start, last⟩ := r
    cases last with
    | none =>
      simp only at h
      subst h
      rw [split_append _ _ (numeral_dash hx), show split '-' [] = [[]] from rfl]
      simp only [(parseU64_iff _ _).2 hx, if_true]
    | some b =>
      obtain ⟨y, hy, rfl⟩ := h
      rw [split_append _ _ (numeral_dash hx), split_none _ _ (numeral_dash hy)]
      simp only [(parseU64_iff _ _).2 hx, (parseU64_iff _ _).2 hy, if_neg (numeral_ne_nil hy)]

/-- Bridge ids are read exactly from their texts: one of a number of bridges. -/
theorem C76_bridge_id (text : List Char) (b : BridgeId) : parseBridgeId text = some b ↔ IdText text b := by
  unfold parseBridgeId IdText
  constructor
  · intro h
    split at h
    · next a c hs =>
      split at h
      · next n m hn hm =>
        unfold BridgeId.parse at h
        split at h
        · cases h
        · split at h
          · cases h
          · cases h
            exact ⟨by simp only; omega, by simp only; omega, a, c, (parseU64_iff _ _).1 hn, (parseU64_iff _ _).1 hm,
              split_pair _ _ _ _ hs⟩
      · cases h
    · cases h
  · rintro ⟨h1, h2, x, y, hx, hy, rfl⟩
    rw [split_append _ _ (numeral_slash hx), split_none _ _ (numeral_slash hy)]
    simp only [(parseU64_iff _ _).2 hx, (parseU64_iff _ _).2 hy]
    unfold BridgeId.parse
    rw [if_neg (by omega), if_neg (by omega)]

theorem orErr_ok (x : Option α) (a : α) : orErr x = .ok a ↔ x = some a := by
  cases x <;> simp [orErr]

theorem bridge_bind_ok (x : Res α) (g : α → Res β) (b : β) : x.bind g = .ok b ↔ ∃ a, x = .ok a ∧ g a = .ok b := by
  cases x <;> simp [Res.bind]

/-- The flags are accepted exactly if each has a meaning, and then mean that. -/
theorem C76_settings (f : Flags) (c : Config) : parse f = .ok c ↔ Means f c := by
  unfold parse
  simp only [bridge_bind_ok, orErr_ok]
  have hopt : ∀ r, optionalFlag parseBlockRange f.e2hsRange = .ok r ↔
      (f.e2hsRange = none → r = none) ∧ (∀ t ∈ f.e2hsRange, ∃ b, RangeText t b ∧ r = some b) := by
    intro r
    cases hf : f.e2hsRange with
    | none =>
      simp only [optionalFlag, Res.ok.injEq, forall_const]
      exact ⟨fun h => ⟨h.symm, fun t ht => nomatch ht⟩, fun h => h.1.symm⟩
    | some t =>
      simp only [optionalFlag]
      constructor
      · intro h
        cases hp : parseBlockRange t with
        | none => rw [hp] at h; cases h
        | some b =>
          rw [hp] at h
          cases h
          exact ⟨(fun h => nomatch h), fun t' ht => by cases ht; exact ⟨b, (C76_range _ _).1 hp, rfl⟩⟩
      · rintro ⟨_, h⟩
        obtain ⟨b, hb, rfl⟩ := h t rfl
        rw [(C76_range _ _).2 hb]
        rfl
  constructor
  · rintro ⟨m, hm, r, hr, s, hs, n, hn, i, hi, h⟩
    cases h
    have hr' := (hopt r).1 hr
    exact ⟨(C76_mode _ _).1 hm, hr'.1, hr'.2, ((NodeConfig.parseSubnetwork_iff _ _).1 hs).symm,
      ((NodeConfig.parseNetwork_iff _ _).1 hn).symm, (C76_bridge_id _ _).1 hi, rfl⟩
  · intro h
    refine ⟨c.mode, (C76_mode _ _).2 h.mode, c.e2hsRange, (hopt _).2 ⟨h.noRange, h.range⟩, c.subnetwork,
      (NodeConfig.parseSubnetwork_iff _ _).2 h.subnetwork.symm, c.network,
      (NodeConfig.parseNetwork_iff _ _).2 h.network.symm, c.bridgeId, (C76_bridge_id _ _).2 h.id, ?_⟩
    rw [← h.limit]

theorem merge_block : Evm.specBlock .merge = some 15537394 := by decide +kernel

theorem startNode_eq (c : Config) : Active c.subnetwork → ∃ n, startNode c = .ok n ∧ BridgeNode c n ∧
    n.events = Events.initNode c.network (match c.subnetwork with
      | .beacon => [.beacon] | .legacyHistory => [.beacon, .legacyHistory]
      | _ => [.beacon, .legacyHistory, .state]) := by
  obtain ⟨mode, range, sub, net, id, limit⟩ := c
  intro h
  have hs : sub = .legacyHistory ∨ sub = .state ∨ sub = .beacon := h
  rcases hs with rfl | rfl | rfl <;> exact ⟨_, rfl, ⟨rfl, rfl, rfl, rfl⟩, rfl⟩

theorem startNode_inactive (c : Config) : ¬ Active c.subnetwork → startNode c = .panic := by
  obtain ⟨mode, range, sub, net, id, limit⟩ := c
  intro h
  unfold startNode
  cases sub
  case beacon => exact absurd (Or.inr (Or.inr rfl)) h
  case legacyHistory => exact absurd (Or.inl rfl) h
  case state => exact absurd (Or.inr (Or.inl rfl)) h
  all_goals rfl

theorem choose_iff (c : Config) (n : NodeConfig.Node) (hn : BridgeNode c n) (b : Bridge) :
    choose c n = .ok b ↔ Works c b := by
  obtain ⟨mode, range, sub, net, id, limit⟩ := c
  obtain ⟨h1, h2, h3, _⟩ := hn
  simp only at h2 h3
  unfold choose
  constructor
  · intro h
    cases sub
    case beacon =>
      simp only [h1] at h
      cases mode <;> cases h
      exact .beacon rfl rfl
    case legacyHistory =>
      rw [if_neg (by simp)] at h2
      simp only [h2] at h
      cases mode
      case e2hs =>
        cases range with
        | none => cases h
        | some r => cases h; exact .e2hs rfl rfl r rfl
      case ephemeralHistory => cases h; exact .ephemeral rfl rfl
      all_goals cases h
    case state =>
      rw [if_pos rfl] at h3
      simp only [h3, merge_block] at h
      cases mode
      case single t =>
        cases t with
        | blockRange a b =>
          simp only [Option.isNone_some, Bool.false_eq_true, if_false] at h
          split at h
          · cases h
          · cases h
            exact .range rfl a b rfl (by omega)
      case snapshot k =>
        simp only [Option.isNone_some, Bool.false_eq_true, if_false] at h
        split at h
        · cases h; exact .snapshot rfl k rfl (by omega)
        · cases h
      all_goals cases h
    all_goals cases h
  · intro h
    cases h with
    | beacon s m =>
      simp only at s m
      subst s m
      simp [h1]
    | e2hs s m r hr =>
      simp only at s m hr
      subst s m hr
      rw [if_neg (by simp)] at h2
      simp [h2]
    | ephemeral s m =>
      simp only at s m
      subst s m
      rw [if_neg (by simp)] at h2
      simp [h2]
    | range s x y m hy =>
      simp only at s m
      subst s m
      rw [if_pos rfl] at h3
      simp only [h3, merge_block, Option.isNone_some, Bool.false_eq_true, if_false]
      rw [if_neg (by omega)]
    | snapshot s k m hk =>
      simp only at s m
      subst s m
      rw [if_pos rfl] at h3
      simp only [h3, Option.isNone_some, Bool.false_eq_true, if_false]
      rw [if_pos (by omega)]

theorem choose_not_err (c : Config) (n : NodeConfig.Node) : choose c n ≠ .err := by
  unfold choose
  split
  · split
    · simp
    · split <;> simp
  · split
    · split
      · simp
      · split <;> simp
    · split <;> simp
    · simp
  · split
    · simp
    · split
      · split
        · simp
        · split <;> simp
      · split <;> simp
      · simp
  · simp

theorem works_active {c : Config} {b : Bridge} (h : Works c b) : Active c.subnetwork := by
  cases h with
  | beacon s m => rw [s]; exact Or.inr (Or.inr rfl)
  | e2hs s m r hr => rw [s]; exact Or.inl rfl
  | ephemeral s m => rw [s]; exact Or.inl rfl
  | range s a b m h => rw [s]; exact Or.inr (Or.inl rfl)
  | snapshot s n m h => rw [s]; exact Or.inr (Or.inl rfl)

/-- The bridge that runs is the one that the subnetwork and the mode ask for, with the range, the identity and the
limit given, on a node that takes part in the subnetworks it needs without storing anything. -/
theorem C76_runs (f : Flags) (b : Bridge) :
    (∃ n, main f = .ok (n, b)) ↔ ∃ c, Means f c ∧ Works c b := by
  unfold main
  simp only [bridge_bind_ok, C76_settings]
  constructor
  · rintro ⟨n, c, hc, n', hn, h⟩
    by_cases ha : Active c.subnetwork
    · obtain ⟨m, h2, hb, _⟩ := startNode_eq c ha
      rw [h2] at hn
      injection hn with hn; subst hn
      cases hch : choose c m with
      | ok b' =>
        rw [hch] at h
        cases h
        exact ⟨c, hc, (choose_iff c _ hb _).1 hch⟩
      | err => rw [hch] at h; cases h
      | panic => rw [hch] at h; cases h
    · rw [startNode_inactive c ha] at hn
      cases hn
  · rintro ⟨c, hc, hw⟩
    obtain ⟨n, h2, hb, _⟩ := startNode_eq c (works_active hw)
    exact ⟨n, c, hc, n, h2, by rw [(choose_iff c n hb b).2 hw]; rfl⟩

/-- The node of a bridge that runs. -/
theorem C76_node (f : Flags) (n : NodeConfig.Node) (b : Bridge) (h : main f = .ok (n, b)) :
    ∃ c, Means f c ∧ Works c b ∧ BridgeNode c n := by
  unfold main at h
  simp only [bridge_bind_ok, C76_settings] at h
  obtain ⟨c, hc, n', hn, h⟩ := h
  by_cases ha : Active c.subnetwork
  · obtain ⟨m, h2, hb, _⟩ := startNode_eq c ha
    rw [h2] at hn
    injection hn with hn; subst hn
    cases hch : choose c m with
    | ok b' =>
      rw [hch] at h
      cases h
      exact ⟨c, hc, (choose_iff c _ hb _).1 hch, hb⟩
    | err => rw [hch] at h; cases h
    | panic => rw [hch] at h; cases h
  · rw [startNode_inactive c ha] at hn
    cases hn

/-- Flags that mean something for which there is no bridge are not refused: the process aborts after its node was
started. -/
theorem C76_unsupported (f : Flags) (c : Config) (hc : Means f c) (hno : ∀ b, ¬ Works c b) : main f = .panic := by
  unfold main
  rw [(C76_settings f c).2 hc]
  show (startNode c).bind _ = _
  by_cases ha : Active c.subnetwork
  · obtain ⟨n, h2, hb, _⟩ := startNode_eq c ha
    rw [h2]
    show (choose c n).map _ = _
    cases hch : choose c n with
    | ok b => exact absurd ((choose_iff c n hb b).1 hch) (hno b)
    | err => exact absurd hch (choose_not_err c n)
    | panic => rfl
  · rw [startNode_inactive c ha]
    rfl

/-- The bridge without flags is such a case: mode `latest` and subnetwork `legacy_history`, its defaults, do not go
together. -/
theorem C76_defaults_violated : main {} = .panic ∧
    main { mode := some "e2hs".toList } = .panic ∧
    main { subnetwork := some "state".toList } = .panic := by
  have h1 : Means {} ⟨.latest, none, .legacyHistory, .mainnet, ⟨1, 1⟩, 64⟩ :=
    (C76_settings _ _).1 (by decide +kernel)
  have h2 : Means { mode := some "e2hs".toList } ⟨.e2hs, none, .legacyHistory, .mainnet, ⟨1, 1⟩, 64⟩ :=
    (C76_settings _ _).1 (by decide +kernel)
  have h3 : Means { subnetwork := some "state".toList } ⟨.latest, none, .state, .mainnet, ⟨1, 1⟩, 64⟩ :=
    (C76_settings _ _).1 (by decide +kernel)
  refine ⟨C76_unsupported _ _ h1 ?_, C76_unsupported _ _ h2 ?_, C76_unsupported _ _ h3 ?_⟩
  all_goals
    intro b hb
    cases hb <;> simp_all

namespace BridgeCliExample

def flags : Flags where
  mode := some "single:r100-+0200".toList
  subnetwork := some "state".toList
  bridgeId := some "2/4".toList
  offerLimit := some 8

example : Means flags ⟨.single (.blockRange 100 200), none, .state, .mainnet, ⟨2, 4⟩, 8⟩ :=
  (C76_settings _ _).1 (by decide +kernel)
example : ∃ n, main flags = .ok (n, .stateRange 100 200 ⟨2, 4⟩ 8) :=
  (C76_runs _ _).2 ⟨_, (C76_settings _ ⟨.single (.blockRange 100 200), none, .state, .mainnet, ⟨2, 4⟩, 8⟩).1
    (by decide +kernel), .range rfl 100 200 rfl (by decide)⟩
example : ∃ n, main { mode := some "e2hs".toList, e2hsRange := some "100-".toList } =
    .ok (n, .e2hs ⟨100, none⟩ 64) :=
  (C76_runs _ _).2 ⟨_, (C76_settings _ ⟨.e2hs, some ⟨100, none⟩, .legacyHistory, .mainnet, ⟨1, 1⟩, 64⟩).1
    (by decide +kernel), .e2hs rfl rfl _ rfl⟩
example : parseMode "backfill".toList = .err := by decide +kernel
example : parseMode "single:r20-10".toList = .err := by decide +kernel
example : parseBridgeId "5/4".toList = none ∧ parseBridgeId "0/4".toList = none := by decide +kernel

end BridgeCliExample

end Verif.Props
