import Verif.Props.OfferSummarySpec

/-! Lemmas about the line about the offers of a content. -/

namespace Verif.OfferSummary
open Verif.StateBridge (Report)
open Verif.Census (OfferTrace)
open scoped Verif.Provider
open Verif.Props.OfferSummarySpec (Each Shown Group Reasons Line answered failed known names)

theorem each_map {A B : Type} {R : A → B → Prop} {f : A → B} :
    ∀ {l : List A}, (∀ a ∈ l, R a (f a)) → Each R l (l.map f)
  | [], _ => trivial
  | a :: l, h => ⟨h a (by simp), each_map (l := l) fun b hb => h b (by simp [hb])⟩

theorem shown_debug (quote : List Char → List Char) (c : Client) : Shown quote c (c.debug quote) := by
  unfold Shown known
  cases c with
  | unknown n =>
    cases n with
    | none => right; left; exact ⟨rfl, by simp only [Client.debug]⟩
    | some n => right; right; exact ⟨n, rfl, by simp only [Client.debug]⟩
  | fluffy => left; simp only [Client.debug]; exact ⟨_, .head _⟩
  | trin => left; simp only [Client.debug]; exact ⟨_, .tail _ (.head _)⟩
  | trinExecution => left; simp only [Client.debug]; exact ⟨_, .tail _ (.tail _ (.head _))⟩
  | shisui => left; simp only [Client.debug]; exact ⟨_, .tail _ (.tail _ (.tail _ (.head _)))⟩
  | ultralight => left; simp only [Client.debug]; exact ⟨_, .tail _ (.tail _ (.tail _ (.tail _ (.head _))))⟩
  | samba => left; simp only [Client.debug]; exact ⟨_, .tail _ (.tail _ (.tail _ (.tail _ (.tail _ (.head _)))))⟩

theorem names_codeText (c : AcceptCode) : (c, codeText c) ∈ names := by
  cases c <;> simp [names, codeText]

/-! ## The groups -/

theorem push_keys (gs : Groups) (code : AcceptCode) (t : List Char) :
    (gs.push code t).map (·.1) = if code ∈ gs.map (·.1) then gs.map (·.1) else gs.map (·.1) ++ [code] := by
  induction gs with
  | nil => simp [Groups.push]
  | cons g gs ih =>
    obtain ⟨c, ts⟩ := g
    by_cases hc : c = code
    · simp [Groups.push, hc]
    · have hc' : ¬ code = c := fun h => hc h.symm
      simp only [Groups.push, if_neg hc, List.map_cons, ih, List.mem_cons, hc', false_or]
      by_cases hm : code ∈ gs.map (·.1) <;> simp [hm]

theorem push_mem {gs : Groups} {code : AcceptCode} {t : List Char} {c : AcceptCode} {ts : List (List Char)}
    (hn : (gs.map (·.1)).Nodup) (h : (c, ts) ∈ gs.push code t) :
    (c ≠ code ∧ (c, ts) ∈ gs) ∨
      (c = code ∧ ((∃ old, (code, old) ∈ gs ∧ ts = old ++ [t]) ∨ (code ∉ gs.map (·.1) ∧ ts = [t]))) := by
  induction gs with
  | nil =>
    simp only [Groups.push, List.mem_singleton, Prod.mk.injEq] at h
    exact .inr ⟨h.1, .inr ⟨by simp, h.2⟩⟩
  | cons g gs ih =>
    obtain ⟨d, us⟩ := g
    simp only [List.map_cons, List.nodup_cons] at hn
    by_cases hd : d = code
    · subst hd
      simp only [Groups.push, if_pos, List.mem_cons, Prod.mk.injEq] at h
      rcases h with ⟨h1, h2⟩ | h
      · exact .inr ⟨h1, .inl ⟨us, by simp, h2⟩⟩
      · refine .inl ⟨?_, by simp [h]⟩
        intro hcd
        exact hn.1 (List.mem_map.2 ⟨(c, ts), h, hcd⟩)
    · simp only [Groups.push, if_neg hd, List.mem_cons, Prod.mk.injEq] at h
      rcases h with ⟨h1, h2⟩ | h
      · exact .inl ⟨h1 ▸ hd, by simp [h1, h2]⟩
      · rcases ih hn.2 h with ⟨h1, h2⟩ | ⟨h1, ⟨old, h2, h3⟩ | ⟨h2, h3⟩⟩
        · exact .inl ⟨h1, by simp [h2]⟩
        · exact .inr ⟨h1, .inl ⟨old, by simp [h2], h3⟩⟩
        · refine .inr ⟨h1, .inr ⟨?_, h3⟩⟩
          simp only [List.map_cons, List.mem_cons, not_or]
          exact ⟨fun h => hd h.symm, h2⟩

/-- The texts of the clients that declined with a code. -/
def textsOf (quote : List Char → List Char) (l : List (Client × AcceptCode)) (c : AcceptCode) : List (List Char) :=
  (l.filter fun d => decide (d.2 = c)).map fun d => d.1.debug quote

structure Good (quote : List Char → List Char) (l : List (Client × AcceptCode)) (gs : Groups) : Prop where
  nodup : (gs.map (·.1)).Nodup
  texts : ∀ c ts, (c, ts) ∈ gs → ts = textsOf quote l c
  keys : ∀ c, c ∈ gs.map (·.1) ↔ ∃ d ∈ l, d.2 = c

theorem Good.push {quote : List Char → List Char} {l : List (Client × AcceptCode)} {gs : Groups} (h : Good quote l gs)
    (d : Client × AcceptCode) : Good quote (l ++ [d]) (gs.push d.2 (d.1.debug quote)) where
  nodup := by
    rw [push_keys]
    split
    · exact h.nodup
    · rename_i hm
      rw [List.nodup_append]
      refine ⟨h.nodup, by simp, ?_⟩
      intro a ha b hb hab
      simp only [List.mem_singleton] at hb
      subst hb; subst hab
      exact hm ha
  texts := by
    intro c ts hm
    rcases push_mem h.nodup hm with ⟨h1, h2⟩ | ⟨h1, ⟨old, h2, h3⟩ | ⟨h2, h3⟩⟩
    · have hne : ¬ d.2 = c := fun e => h1 e.symm
      rw [h.texts c ts h2]; simp [textsOf, hne]
    · subst h1
      rw [h3, h.texts _ old h2]; simp [textsOf]
    · subst h1
      have hno : l.filter (fun e => decide (e.2 = d.2)) = [] := by
        rw [List.filter_eq_nil_iff]
        intro e he hd
        exact h2 ((h.keys _).2 ⟨e, he, by simpa using hd⟩)
      rw [h3]; simp [textsOf, hno]
  keys := by
    intro c
    rw [push_keys]
    split
    · rename_i hm
      rw [h.keys]
      constructor
      · rintro ⟨e, he, hc⟩; exact ⟨e, by simp [he], hc⟩
      · rintro ⟨e, he, hc⟩
        rcases List.mem_append.1 he with he | he
        · exact ⟨e, he, hc⟩
        · simp only [List.mem_singleton] at he
          subst he; subst hc
          exact (h.keys _).1 hm
    · rw [List.mem_append, h.keys]
      constructor
      · rintro (⟨e, he, hc⟩ | hc)
        · exact ⟨e, by simp [he], hc⟩
        · exact ⟨d, by simp, by simpa using Eq.symm (by simpa using hc)⟩
      · rintro ⟨e, he, hc⟩
        rcases List.mem_append.1 he with he | he
        · exact .inl ⟨e, he, hc⟩
        · simp only [List.mem_singleton] at he
          subst he; subst hc; simp

theorem good_foldl (quote : List Char → List Char) (l : List (Client × AcceptCode)) :
    ∀ (done : List (Client × AcceptCode)) (gs : Groups), Good quote done gs →
      Good quote (done ++ l) (l.foldl (fun gs d => gs.push d.2 (d.1.debug quote)) gs) := by
  induction l with
  | nil => intro done gs h; simpa using h
  | cons d l ih =>
    intro done gs h
    have := ih (done ++ [d]) _ (h.push d)
    simpa using this

theorem good_groupsOf (quote : List Char → List Char) (l : List (Client × AcceptCode)) : Good quote l (groupsOf quote l) := by
  simpa [groupsOf] using good_foldl quote l [] [] ⟨by simp, by simp, by simp⟩

/-! ## The report -/

/-- The peers that declined. -/
def declinedOf (offers : List (Client × OfferTrace)) : List (Client × AcceptCode) :=
  offers.filterMap fun o => match o.2 with
    | .success code => if code = .accepted then none else some (o.1, code)
    | .failed => none

theorem declinedOf_append (a b : List (Client × OfferTrace)) : declinedOf (a ++ b) = declinedOf a ++ declinedOf b := by
  simp [declinedOf]

theorem answered_append (a b : List (Client × OfferTrace)) (c : AcceptCode) :
    answered (a ++ b) c = answered a c ++ answered b c := by
  simp [answered]

theorem failed_append (a b : List (Client × OfferTrace)) : failed (a ++ b) = failed a ++ failed b := by
  simp [failed]

theorem textsOf_declinedOf (quote : List Char → List Char) {c : AcceptCode} (hc : c ≠ .accepted)
    (offers : List (Client × OfferTrace)) :
    textsOf quote (declinedOf offers) c = (answered offers c).map (·.debug quote) := by
  induction offers with
  | nil => rfl
  | cons o offers ih =>
    have e : o :: offers = [o] ++ offers := rfl
    rw [e, declinedOf_append, answered_append, List.map_append, ← ih]
    obtain ⟨p, t⟩ := o
    cases t with
    | failed => simp [declinedOf, answered, textsOf]
    | success code =>
      by_cases ha : code = .accepted
      · have hac : ¬ AcceptCode.accepted = c := fun h => hc h.symm
        simp [declinedOf, answered, textsOf, ha, hac]
      · by_cases hcc : code = c
        · subst hcc; simp [declinedOf, answered, textsOf, ha]
        · simp [declinedOf, answered, textsOf, ha, hcc]

theorem mem_declinedOf {offers : List (Client × OfferTrace)} {c : AcceptCode} :
    (∃ d ∈ declinedOf offers, d.2 = c) ↔ c ≠ .accepted ∧ answered offers c ≠ [] := by
  constructor
  · rintro ⟨⟨p, code⟩, hd, rfl⟩
    simp only [declinedOf, List.mem_filterMap] at hd
    obtain ⟨⟨q, t⟩, ho, hm⟩ := hd
    cases t with
    | failed => simp at hm
    | success k =>
      by_cases ha : k = .accepted
      · simp [ha] at hm
      · simp only [if_neg ha, Option.some.injEq, Prod.mk.injEq] at hm
        obtain ⟨rfl, rfl⟩ := hm
        refine ⟨ha, ?_⟩
        have : q ∈ answered offers k := List.mem_map.2 ⟨(q, .success k), List.mem_filter.2 ⟨ho, by simp⟩, rfl⟩
        intro h; rw [h] at this; simp at this
  · rintro ⟨hc, ha⟩
    obtain ⟨q, hq⟩ := List.exists_mem_of_ne_nil _ ha
    simp only [answered, List.mem_map, List.mem_filter, decide_eq_true_eq] at hq
    obtain ⟨⟨p, t⟩, ⟨ho, ht⟩, hp⟩ := hq
    simp only at ht
    subst ht
    exact ⟨(p, c), List.mem_filterMap.2 ⟨(p, .success c), ho, by simp [hc]⟩, rfl⟩

theorem reasons_good (quote : List Char → List Char) {order : Groups → Groups} (ho : ∀ gs, (order gs).Perm gs)
    (offers : List (Client × OfferTrace)) : Reasons quote offers (reasons quote order (declinedOf offers)) := by
  have hg := good_groupsOf quote (declinedOf offers)
  have hp := ho (groupsOf quote (declinedOf offers))
  revert hg hp
  unfold reasons
  generalize groupsOf quote (declinedOf offers) = gs
  intro hg hp
  have hkeys : ∀ c, c ∈ (order gs).map (·.1) ↔ c ≠ .accepted ∧ answered offers c ≠ [] := by
    intro c
    rw [(hp.map (·.1)).mem_iff, hg.keys, mem_declinedOf]
  refine ⟨(order gs).map (·.1),
    ((order gs).map (·.1)).map fun c => codeText c ++ (chars% ":[") ++
      List.intercalate (chars% ",") ((answered offers c).map (·.debug quote)) ++ (chars% "]"),
    (hp.map (·.1)).nodup_iff.2 hg.nodup, hkeys, each_map ?_, ?_⟩
  · intro c _
    exact ⟨codeText c, _, names_codeText c, each_map fun k _ => shown_debug quote k, rfl⟩
  · cases gs with
    | nil =>
      have : order [] = [] := List.perm_nil.1 hp
      simp [this]
    | cons g gs =>
      have hne : ¬ (order (g :: gs)).map (·.1) = [] := by
        intro h
        have := hp.length_eq
        rw [List.map_eq_nil_iff.1 h] at this
        simp at this
      rw [if_neg hne]
      simp only [List.isEmpty_cons, Bool.false_eq_true, if_false, List.map_map]
      congr 1
      apply List.map_congr_left
      intro e he
      have hc := (hkeys e.1).1 (List.mem_map.2 ⟨e, he, rfl⟩)
      have ht := hg.texts e.1 e.2 (hp.mem_iff.1 he)
      rw [textsOf_declinedOf quote hc.1] at ht
      simp [Function.comp, ht]

theorem count_one (p : Client) (t : OfferTrace) :
    (answered [(p, t)] .accepted).length + (failed [(p, t)]).length + (declinedOf [(p, t)]).length = 1 := by
  cases t with
  | failed => simp [declinedOf, answered, failed]
  | success code => by_cases ha : code = .accepted <;> simp [declinedOf, answered, failed, ha]

theorem count_all (offers : List (Client × OfferTrace)) :
    (answered offers .accepted).length + (failed offers).length + (declinedOf offers).length = offers.length := by
  induction offers with
  | nil => rfl
  | cons o offers ih =>
    have e : o :: offers = [o] ++ offers := rfl
    have h1 := count_one o.1 o.2
    rw [show (o.1, o.2) = o from rfl] at h1
    rw [e, declinedOf_append, answered_append, failed_append]
    simp only [List.length_append, List.length_cons, List.length_nil]
    omega

structure After (total : Nat) (done : List (Client × OfferTrace)) (r : Report Client) : Prop where
  total : r.total = total
  accepted : r.accepted = (answered done .accepted).length
  declined : r.declined = declinedOf done
  failed : r.failed = failed done

theorem update_eq (r : Report Client) (p : Client) (t : OfferTrace) :
    (r.update p t).total = r.total ∧ (r.update p t).accepted = r.accepted + (answered [(p, t)] .accepted).length ∧
      (r.update p t).declined = r.declined ++ declinedOf [(p, t)] ∧ (r.update p t).failed = r.failed ++ failed [(p, t)] ∧
      ((r.update p t).printed = r.printed ↔ (r.update p t).total ≠
        (r.update p t).accepted + (r.update p t).failed.length + (r.update p t).declined.length) := by
  unfold Report.update
  cases t with
  | failed =>
    simp only []
    split <;> rename_i hs <;> simp [declinedOf, answered, failed] <;> simpa using hs
  | success code =>
    by_cases ha : code = .accepted
    · simp only [ha, if_true]
      split <;> rename_i hs <;> simp [declinedOf, answered, failed] <;> simpa using hs
    · simp only [ha, if_false]
      split <;> rename_i hs <;> simp [declinedOf, answered, failed, ha] <;> simpa using hs

theorem After.update {total : Nat} {done : List (Client × OfferTrace)} {r : Report Client} (h : After total done r)
    (p : Client) (t : OfferTrace) :
    After total (done ++ [(p, t)]) (r.update p t) ∧
      ((r.update p t).printed = r.printed ↔ total ≠ done.length + 1) := by
  obtain ⟨u1, u2, u3, u4, u5⟩ := update_eq r p t
  have hn : After total (done ++ [(p, t)]) (r.update p t) :=
    ⟨u1.trans h.total, by rw [u2, h.accepted, answered_append, List.length_append],
      by rw [u3, h.declined, declinedOf_append], by rw [u4, h.failed, failed_append]⟩
  refine ⟨hn, ?_⟩
  have hall := count_all (done ++ [(p, t)])
  rw [u5, hn.total, hn.accepted, hn.declined, hn.failed, hall]
  simp

theorem line_good (quote : List Char → List Char) {order : Groups → Groups} (ho : ∀ gs, (order gs).Perm gs) (key : List Char)
    {offers : List (Client × OfferTrace)} {r : Report Client} (h : After offers.length offers r) :
    Line quote key offers (line quote order key r) :=
  ⟨reasons quote order (declinedOf offers), reasons_good quote ho offers, by
    simp only [line, h.total, h.accepted, h.declined, h.failed]⟩

theorem printed_late (quote : List Char → List Char) (order : Groups → Groups) (key : List Char) {total : Nat} :
    ∀ (rest done : List (Client × OfferTrace)) (r : Report Client), After total done r →
      (total ≤ done.length ∨ done.length + rest.length < total) → printed quote order key r rest = [] := by
  intro rest
  induction rest with
  | nil => intros; rfl
  | cons o rest ih =>
    intro done r h hl
    obtain ⟨p, t⟩ := o
    obtain ⟨h1, h2⟩ := h.update p t
    simp only [List.length_cons] at hl
    simp only [printed]
    rw [if_pos (h2.2 (by omega))]
    exact ih _ _ h1 (by simp only [List.length_append, List.length_cons, List.length_nil]; omega)

theorem printed_once (quote : List Char → List Char) {order : Groups → Groups} (ho : ∀ gs, (order gs).Perm gs)
    (key : List Char) {total : Nat} :
    ∀ (rest done : List (Client × OfferTrace)) (r : Report Client), After total done r → done.length < total →
      done.length + rest.length = total → ∃ text, Line quote key (done ++ rest) text ∧ printed quote order key r rest = [text] := by
  intro rest
  induction rest with
  | nil => intro done r _ h1 h2; simp at h2; omega
  | cons o rest ih =>
    intro done r h hl ht
    obtain ⟨p, t⟩ := o
    obtain ⟨h1, h2⟩ := h.update p t
    simp only [List.length_cons] at ht
    simp only [printed]
    by_cases hlast : total = done.length + 1
    · have hr : rest = [] := List.eq_nil_of_length_eq_zero (by omega)
      subst hr
      rw [if_neg (fun h => h2.1 h hlast)]
      have hlen : total = (done ++ [(p, t)]).length := by simp [hlast]
      refine ⟨_, line_good quote ho key (hlen ▸ h1), rfl⟩
    · rw [if_pos (h2.2 hlast)]
      have := ih (done ++ [(p, t)]) _ h1 (by simp; omega) (by simp; omega)
      simpa using this

theorem printed_more (quote : List Char → List Char) (order : Groups → Groups) (key : List Char) {total : Nat}
    (more : List (Client × OfferTrace)) :
    ∀ (rest done : List (Client × OfferTrace)) (r : Report Client), After total done r → done.length + rest.length = total →
      printed quote order key r (rest ++ more) = printed quote order key r rest := by
  intro rest
  induction rest with
  | nil =>
    intro done r h hl
    exact printed_late quote order key more done r h (.inl (by simp at hl; omega))
  | cons o rest ih =>
    intro done r h hl
    obtain ⟨p, t⟩ := o
    simp only [List.length_cons] at hl
    simp only [List.cons_append, printed]
    rw [ih _ _ (h.update p t).1 (by simp only [List.length_append, List.length_cons, List.length_nil]; omega)]

theorem after_new (total : Nat) : After total [] (Report.new total) := ⟨rfl, rfl, rfl, rfl⟩

/-! ## The line says which clients declined -/

theorem intercalate_cons (sep a b : List Char) (l : List (List Char)) :
    List.intercalate sep (a :: b :: l) = a ++ (sep ++ List.intercalate sep (b :: l)) := by
  simp [List.intercalate, List.intersperse]

theorem intercalate_one (sep a : List Char) : List.intercalate sep [a] = a := by
  simp [List.intercalate]

theorem shown_inj {quote : List Char → List Char} (hq : ∀ a b x y, quote a ++ x = quote b ++ y → a = b ∧ x = y)
    {a b : Client} {s t : List Char} (ha : Shown quote a s) (hb : Shown quote b t) {c d : Char} (hc : c = ',' ∨ c = ']')
    (hd : d = ',' ∨ d = ']') {x y : List Char} (h : s ++ c :: x = t ++ d :: y) : a = b ∧ c :: x = d :: y := by
  unfold Shown at ha hb
  simp only [known, List.mem_cons, Prod.mk.injEq, List.not_mem_nil, or_false] at ha hb
  have key : ∀ n : List Char, a = .unknown (some n) → s = (chars% "Unknown(Some(") ++ quote n ++ (chars% "))") →
      ∀ m : List Char, b = .unknown (some m) → t = (chars% "Unknown(Some(") ++ quote m ++ (chars% "))") →
      a = b ∧ c :: x = d :: y := by
    intro n ea es m eb et
    subst es et
    simp only [List.cons_append, List.nil_append, List.append_assoc, List.cons.injEq, true_and] at h
    obtain ⟨h1, h2⟩ := hq _ _ _ _ h
    simp only [List.cons.injEq, true_and] at h2
    exact ⟨by rw [ea, eb, h1], by rw [h2.1, h2.2]⟩
  rcases ha with ⟨n, ha⟩ | ⟨ha, hs⟩ | ⟨n, ha, hs⟩
  · rcases hb with ⟨m, hb⟩ | ⟨hb, ht⟩ | ⟨m, hb, ht⟩
    · rcases ha with ⟨rfl, _, rfl⟩ | ⟨rfl, _, rfl⟩ | ⟨rfl, _, rfl⟩ | ⟨rfl, _, rfl⟩ | ⟨rfl, _, rfl⟩ | ⟨rfl, _, rfl⟩ <;>
      rcases hb with ⟨rfl, _, rfl⟩ | ⟨rfl, _, rfl⟩ | ⟨rfl, _, rfl⟩ | ⟨rfl, _, rfl⟩ | ⟨rfl, _, rfl⟩ | ⟨rfl, _, rfl⟩ <;>
      first
        | exact ⟨rfl, by simpa using h⟩
        | (exfalso; rcases hc with rfl | rfl <;> rcases hd with rfl | rfl <;> simp at h)
    · subst hb ht
      rcases ha with ⟨rfl, _, rfl⟩ | ⟨rfl, _, rfl⟩ | ⟨rfl, _, rfl⟩ | ⟨rfl, _, rfl⟩ | ⟨rfl, _, rfl⟩ | ⟨rfl, _, rfl⟩ <;> simp at h
    · subst hb ht
      rcases ha with ⟨rfl, _, rfl⟩ | ⟨rfl, _, rfl⟩ | ⟨rfl, _, rfl⟩ | ⟨rfl, _, rfl⟩ | ⟨rfl, _, rfl⟩ | ⟨rfl, _, rfl⟩ <;> simp at h
  · rcases hb with ⟨m, hb⟩ | ⟨hb, ht⟩ | ⟨m, hb, ht⟩
    · subst ha hs
      rcases hb with ⟨rfl, _, rfl⟩ | ⟨rfl, _, rfl⟩ | ⟨rfl, _, rfl⟩ | ⟨rfl, _, rfl⟩ | ⟨rfl, _, rfl⟩ | ⟨rfl, _, rfl⟩ <;> simp at h
    · subst ha hs hb ht
      exact ⟨rfl, by simpa using h⟩
    · subst ha hs hb ht
      simp at h
  · rcases hb with ⟨m, hb⟩ | ⟨hb, ht⟩ | ⟨m, hb, ht⟩
    · subst ha hs
      rcases hb with ⟨rfl, _, rfl⟩ | ⟨rfl, _, rfl⟩ | ⟨rfl, _, rfl⟩ | ⟨rfl, _, rfl⟩ | ⟨rfl, _, rfl⟩ | ⟨rfl, _, rfl⟩ <;> simp at h
    · subst ha hs hb ht
      simp at h
    · exact key n ha hs m hb ht

theorem clients_inj {quote : List Char → List Char} (hq : ∀ a b x y, quote a ++ x = quote b ++ y → a = b ∧ x = y)
    {x y : List Char} : ∀ {as bs : List Client} {ss ts : List (List Char)}, as ≠ [] → bs ≠ [] →
      Each (Shown quote) as ss → Each (Shown quote) bs ts →
      List.intercalate (chars% ",") ss ++ ']' :: x = List.intercalate (chars% ",") ts ++ ']' :: y → as = bs ∧ x = y
  | [], _, _, _, h, _, _, _, _ => absurd rfl h
  | _ :: _, [], _, _, _, h, _, _, _ => absurd rfl h
  | _ :: _, _ :: _, [], _, _, _, h, _, _ => h.elim
  | _ :: _, _ :: _, _ :: _, [], _, _, _, h, _ => h.elim
  | [a], [b], [s], [t], _, _, hs, ht, h => by
    rw [intercalate_one, intercalate_one] at h
    obtain ⟨h1, h2⟩ := shown_inj hq hs.1 ht.1 (.inr rfl) (.inr rfl) h
    exact ⟨by rw [h1], by simpa using h2⟩
  | [a], b :: b' :: bs, [s], t :: t' :: ts, _, _, hs, ht, h => by
    rw [intercalate_one, intercalate_cons, List.append_assoc] at h
    obtain ⟨_, h2⟩ := shown_inj hq hs.1 ht.1 (.inr rfl) (.inl rfl) h
    simp at h2
  | a :: a' :: as, [b], s :: s' :: ss, [t], _, _, hs, ht, h => by
    rw [intercalate_one, intercalate_cons, List.append_assoc] at h
    obtain ⟨_, h2⟩ := shown_inj hq hs.1 ht.1 (.inl rfl) (.inr rfl) h
    simp at h2
  | a :: a' :: as, b :: b' :: bs, s :: s' :: ss, t :: t' :: ts, _, _, hs, ht, h => by
    rw [intercalate_cons, intercalate_cons] at h
    simp only [List.append_assoc, List.cons_append, List.nil_append] at h
    obtain ⟨h1, h2⟩ := shown_inj hq hs.1 ht.1 (.inl rfl) (.inl rfl) h
    simp only [List.cons.injEq, true_and] at h2
    obtain ⟨h3, h4⟩ := clients_inj hq (by simp) (by simp) hs.2 ht.2 h2
    exact ⟨by rw [h1, h3], h4⟩
  | [_], _, _ :: _ :: _, _, _, _, h, _, _ => h.2.elim
  | _ :: _ :: _, _, [_], _, _, _, h, _, _ => h.2.elim
  | _, [_], _, _ :: _ :: _, _, _, _, h, _ => h.2.elim
  | _, _ :: _ :: _, _, [_], _, _, _, h, _ => h.2.elim

theorem group_inj {quote : List Char → List Char} (hq : ∀ a b x y, quote a ++ x = quote b ++ y → a = b ∧ x = y)
    {o o' : List (Client × OfferTrace)} {c c' : AcceptCode} {g g' x y : List Char} (hg : Group quote o c g)
    (hg' : Group quote o' c' g') (hne : answered o c ≠ []) (hne' : answered o' c' ≠ []) (h : g ++ x = g' ++ y) :
    c = c' ∧ answered o c = answered o' c' ∧ x = y := by
  obtain ⟨n, ts, hn, he, rfl⟩ := hg
  obtain ⟨n', ts', hn', he', rfl⟩ := hg'
  simp only [List.append_assoc, List.cons_append, List.nil_append] at h
  have key : c = c' ∧ List.intercalate (chars% ",") ts ++ ']' :: x = List.intercalate (chars% ",") ts' ++ ']' :: y := by
    revert h
    generalize List.intercalate (chars% ",") ts ++ ']' :: x = u
    generalize List.intercalate (chars% ",") ts' ++ ']' :: y = v
    intro h
    simp only [names, List.mem_cons, Prod.mk.injEq, List.not_mem_nil, or_false] at hn hn'
    rcases hn with ⟨rfl, rfl⟩ | ⟨rfl, rfl⟩ | ⟨rfl, rfl⟩ | ⟨rfl, rfl⟩ | ⟨rfl, rfl⟩ | ⟨rfl, rfl⟩ | ⟨rfl, rfl⟩ <;>
    rcases hn' with ⟨rfl, rfl⟩ | ⟨rfl, rfl⟩ | ⟨rfl, rfl⟩ | ⟨rfl, rfl⟩ | ⟨rfl, rfl⟩ | ⟨rfl, rfl⟩ | ⟨rfl, rfl⟩ <;>
    first
      | exact ⟨rfl, by simpa using h⟩
      | (exfalso; simp at h)
  obtain ⟨h1, h2⟩ := clients_inj hq hne hne' he he' key.2
  exact ⟨key.1, h1, h2⟩

theorem groups_inj {quote : List Char → List Char} (hq : ∀ a b x y, quote a ++ x = quote b ++ y → a = b ∧ x = y)
    {o o' : List (Client × OfferTrace)} : ∀ {cs cs' : List AcceptCode} {gs gs' : List (List Char)}, cs ≠ [] → cs' ≠ [] →
      (∀ c ∈ cs, answered o c ≠ []) → (∀ c ∈ cs', answered o' c ≠ []) →
      Each (Group quote o) cs gs → Each (Group quote o') cs' gs' →
      List.intercalate (chars% " | ") gs = List.intercalate (chars% " | ") gs' →
      cs = cs' ∧ ∀ c ∈ cs, answered o c = answered o' c
  | [], _, _, _, h, _, _, _, _, _, _ => absurd rfl h
  | _ :: _, [], _, _, _, h, _, _, _, _, _ => absurd rfl h
  | _ :: _, _ :: _, [], _, _, _, _, _, h, _, _ => h.elim
  | _ :: _, _ :: _, _ :: _, [], _, _, _, _, _, h, _ => h.elim
  | [c], [c'], [g], [g'], _, _, hc, hc', he, he', h => by
    rw [intercalate_one, intercalate_one] at h
    obtain ⟨h1, h2, _⟩ := group_inj (x := []) (y := []) hq he.1 he'.1 (hc _ (by simp)) (hc' _ (by simp)) (by simpa using h)
    subst h1
    exact ⟨rfl, by simpa using h2⟩
  | [c], c' :: d' :: cs', [g], g' :: k' :: gs', _, _, hc, hc', he, he', h => by
    rw [intercalate_one, intercalate_cons] at h
    obtain ⟨_, _, h3⟩ := group_inj (x := []) hq he.1 he'.1 (hc _ (by simp)) (hc' _ (by simp)) (by rw [List.append_nil]; exact h)
    simp at h3
  | c :: d :: cs, [c'], g :: k :: gs, [g'], _, _, hc, hc', he, he', h => by
    rw [intercalate_one, intercalate_cons] at h
    obtain ⟨_, _, h3⟩ := group_inj (x := (chars% " | ") ++ List.intercalate (chars% " | ") (k :: gs)) (y := []) hq he.1 he'.1
      (hc _ (by simp)) (hc' _ (by simp)) (by rw [List.append_nil]; exact h)
    simp at h3
  | c :: d :: cs, c' :: d' :: cs', g :: k :: gs, g' :: k' :: gs', _, _, hc, hc', he, he', h => by
    rw [intercalate_cons, intercalate_cons] at h
    obtain ⟨h1, h2, h3⟩ := group_inj hq he.1 he'.1 (hc _ (by simp)) (hc' _ (by simp)) h
    have h4 := List.append_cancel_left h3
    obtain ⟨h5, h6⟩ := groups_inj hq (by simp) (by simp) (fun e he => hc e (List.mem_cons_of_mem _ he))
      (fun e he => hc' e (List.mem_cons_of_mem _ he)) he.2 he'.2 h4
    subst h1
    refine ⟨by rw [h5], ?_⟩
    intro e hm
    rcases List.mem_cons.1 hm with rfl | hm
    · exact h2
    · exact h6 e hm
  | [_], _, _ :: _ :: _, _, _, _, _, _, h, _, _ => h.2.elim
  | _ :: _ :: _, _, [_], _, _, _, _, _, h, _, _ => h.2.elim
  | _, [_], _, _ :: _ :: _, _, _, _, _, _, h, _ => h.2.elim
  | _, _ :: _ :: _, _, [_], _, _, _, _, _, h, _ => h.2.elim

end Verif.OfferSummary
