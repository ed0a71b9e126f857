import Verif.Lemmas.OfferSummary

/-! # C115: the line that a bridge prints about the offers of a content -/

namespace Verif.Props
open Verif.OfferSummary Verif.Props.OfferSummarySpec
open Verif.StateBridge (Report)
open Verif.Census (OfferTrace)
open scoped Verif.Provider

/-- **C115**: when the last of the offers of a content has ended, one line is printed, and not before or after. It has the
number of peers that accepted, of all peers and of failed offers, and for each code with which a peer declined the clients
that did, each as often as it declined, whatever order the offers end in and the map is gone through. Whatever else was
reported later (`more`) would not print it again. -/
theorem C115_line (quote : List Char → List Char) {order : Groups → Groups} (ho : ∀ gs, (order gs).Perm gs) (key : List Char)
    (offers more : List (Client × OfferTrace)) (hne : offers ≠ []) :
    ∃ text, Line quote key offers text ∧ printed quote order key (Report.new offers.length) (offers ++ more) = [text] := by
  rw [printed_more quote order key more offers [] _ (after_new _) (by simp)]
  simpa using printed_once quote ho key offers [] _ (after_new _) (List.length_pos_iff.2 hne) (by simp)

/-- **C115**: while offers are missing, nothing is printed. -/
theorem C115_quiet (quote : List Char → List Char) (order : Groups → Groups) (key : List Char) (total : Nat)
    (offers : List (Client × OfferTrace)) (hl : offers.length < total) :
    printed quote order key (Report.new total) offers = [] :=
  printed_late quote order key offers [] _ (after_new _) (.inr (by simpa using hl))

/-- **C115**: the reasons are "none" only if no peer declined. -/
theorem C115_none (quote : List Char → List Char) (offers : List (Client × OfferTrace)) (text : List Char)
    (h : Reasons quote offers text) :
    text = (chars% "none") ↔ ∀ o ∈ offers, o.2 = .failed ∨ o.2 = .success .accepted := by
  obtain ⟨codes, texts, _, hk, he, rfl⟩ := h
  have hcodes : codes = [] ↔ ∀ o ∈ offers, o.2 = .failed ∨ o.2 = .success .accepted := by
    constructor
    · intro h0 o hm
      obtain ⟨p, t⟩ := o
      cases t with
      | failed => exact .inl rfl
      | success c =>
        by_cases hc : c = .accepted
        · exact .inr (by simp [hc])
        · have : c ∈ codes := (hk c).2 ⟨hc, by
            have : p ∈ answered offers c := List.mem_map.2 ⟨(p, .success c), List.mem_filter.2 ⟨hm, by simp⟩, rfl⟩
            intro h; rw [h] at this; simp at this⟩
          rw [h0] at this; simp at this
    · intro hall
      rw [List.eq_nil_iff_forall_not_mem]
      intro c hc
      obtain ⟨h1, h2⟩ := (hk c).1 hc
      obtain ⟨q, hq⟩ := List.exists_mem_of_ne_nil _ h2
      simp only [answered, List.mem_map, List.mem_filter, decide_eq_true_eq] at hq
      obtain ⟨o, ⟨ho, ht⟩, _⟩ := hq
      rcases hall o ho with h | h
      · rw [h] at ht; simp at ht
      · rw [h] at ht; simp at ht; exact h1 ht.symm
  rw [← hcodes]
  by_cases h0 : codes = []
  · simp [h0]
  · rw [if_neg h0]
    refine ⟨fun h => ?_, fun h => absurd h h0⟩
    cases codes with
    | nil => exact absurd rfl h0
    | cons c codes =>
      cases texts with
      | nil => exact he.elim
      | cons t texts =>
        obtain ⟨⟨name, ts, hname, _, rfl⟩, _⟩ := he
        exfalso
        have hhead : ∀ rest : List Char, (name ++ rest).head? ≠ some 'n' := by
          intro rest
          simp only [names, List.mem_cons, Prod.mk.injEq, List.not_mem_nil, or_false] at hname
          rcases hname with ⟨_, rfl⟩ | ⟨_, rfl⟩ | ⟨_, rfl⟩ | ⟨_, rfl⟩ | ⟨_, rfl⟩ | ⟨_, rfl⟩ | ⟨_, rfl⟩ <;> simp
        cases texts with
        | nil =>
          have hh := congrArg List.head? h
          simp only [List.intercalate, List.intersperse, List.flatten_cons, List.flatten_nil, List.append_nil,
            List.append_assoc] at hh
          exact hhead _ (hh.trans rfl)
        | cons u texts =>
          have hh := congrArg List.head? h
          simp only [List.intercalate, List.intersperse, List.flatten_cons, List.append_assoc] at hh
          exact hhead _ (hh.trans rfl)

/-- **C115**: the reasons tell which clients declined: if two contents have the same reasons, then the same clients declined
for each of them. No name that a peer gives can make the line say something else, as long as the quoted form of a string
shows where it ends. -/
theorem C115_unforgeable (quote : List Char → List Char) (hq : ∀ a b x y, quote a ++ x = quote b ++ y → a = b ∧ x = y)
    (offers offers' : List (Client × OfferTrace)) (text : List Char) (h : Reasons quote offers text)
    (h' : Reasons quote offers' text) (code : AcceptCode) (hc : code ≠ .accepted) :
    answered offers code = answered offers' code := by
  have hnone : ∀ l : List (Client × OfferTrace), (∀ o ∈ l, o.2 = .failed ∨ o.2 = .success .accepted) →
      answered l code = [] := by
    intro l hl
    simp only [answered, List.map_eq_nil_iff, List.filter_eq_nil_iff, decide_eq_true_eq]
    intro o ho ht
    rcases hl o ho with h | h
    · rw [h] at ht; simp at ht
    · rw [h] at ht; simp at ht; exact hc ht.symm
  by_cases ht : text = (chars% "none")
  · rw [hnone _ ((C115_none quote offers text h).1 ht), hnone _ ((C115_none quote offers' text h').1 ht)]
  · obtain ⟨cs, gs, _, hk, he, e⟩ := h
    obtain ⟨cs', gs', _, hk', he', e'⟩ := h'
    by_cases h0 : cs = []
    · rw [if_pos h0] at e; exact absurd e ht
    by_cases h0' : cs' = []
    · rw [if_pos h0'] at e'; exact absurd e' ht
    rw [if_neg h0] at e
    rw [if_neg h0'] at e'
    obtain ⟨h1, h2⟩ := groups_inj hq h0 h0' (fun c hm => ((hk c).1 hm).2) (fun c hm => ((hk' c).1 hm).2) he he'
      (e.symm.trans e')
    by_cases hm : code ∈ cs
    · exact h2 code hm
    · have a1 : answered offers code = [] := Classical.byContradiction fun hn => hm ((hk code).2 ⟨hc, hn⟩)
      have a2 : answered offers' code = [] :=
        Classical.byContradiction fun hn => hm (h1 ▸ (hk' code).2 ⟨hc, hn⟩)
      rw [a1, a2]

/-- A quoted form that shows where it ends: each character after a backslash, between quotation marks. -/
def quoteAll (s : List Char) : List Char := '"' :: (s.flatMap fun c => ['\\', c]) ++ ['"']

/-- The hypothesis of `C115_unforgeable` is met. -/
example : ∀ a b x y, quoteAll a ++ x = quoteAll b ++ y → a = b ∧ x = y := by
  intro a
  simp only [quoteAll]
  induction a with
  | nil =>
    intro b x y h
    cases b with
    | nil => simpa using h
    | cons c b => simp at h
  | cons c a ih =>
    intro b x y h
    cases b with
    | nil => simp at h
    | cons d b =>
      simp only [List.flatMap_cons, List.cons_append, List.nil_append, List.cons.injEq, true_and] at h
      obtain ⟨h1, h2⟩ := ih b x y (by simpa using h.2)
      exact ⟨by rw [h.1, h1], h2⟩

/-- Without quotation marks a peer could forge the line. -/
example : reasons (fun s => s) id [(.unknown (some (chars% "x)),Trin,Unknown(Some(y")), .rateLimited)]
    = reasons (fun s => s) id [(.unknown (some (chars% "x")), .rateLimited), (.trin, .rateLimited),
        (.unknown (some (chars% "y")), .rateLimited)] := by
  decide +kernel

/-- **C115**: a peer counts as a known client exactly if its name, in lower case, is the name of that client. A name that is
not known is kept, in lower case, and a peer that does not tell its name is told apart from one with an unknown name. -/
theorem C115_client (lower : List Char → List Char) (info : Option (List Char)) :
    (∀ client name shown, (client, name, shown) ∈ known →
      (Client.ofInfo lower info = client ↔ info.map lower = some name)) ∧
    (∀ name, Client.ofInfo lower info = .unknown (some name) ↔
      info.map lower = some name ∧ ∀ k ∈ known, k.2.1 ≠ name) ∧
    (Client.ofInfo lower info = .unknown none ↔ info = none) := by
  cases info with
  | none =>
    refine ⟨?_, ?_, ?_⟩
    · intro client name shown h
      simp only [known, List.mem_cons, Prod.mk.injEq, List.not_mem_nil, or_false] at h
      rcases h with ⟨rfl, _⟩ | ⟨rfl, _⟩ | ⟨rfl, _⟩ | ⟨rfl, _⟩ | ⟨rfl, _⟩ | ⟨rfl, _⟩ <;> simp [Client.ofInfo]
    · intro name; simp [Client.ofInfo]
    · simp [Client.ofInfo]
  | some n =>
    simp only [Client.ofInfo, Client.ofName, Option.map_some, Option.some.injEq]
    generalize lower n = v
    by_cases h1 : v = (chars% "fluffy")
    · subst h1
      refine ⟨?_, fun name => ⟨fun h => by simp at h, ?_⟩, by simp⟩
      · intro client name shown h
        simp only [known, List.mem_cons, Prod.mk.injEq, List.not_mem_nil, or_false] at h
        rcases h with ⟨rfl, rfl, _⟩ | ⟨rfl, rfl, _⟩ | ⟨rfl, rfl, _⟩ | ⟨rfl, rfl, _⟩ | ⟨rfl, rfl, _⟩ | ⟨rfl, rfl, _⟩ <;> simp
      · rintro ⟨rfl, h⟩
        simp [known] at h
    by_cases h2 : v = (chars% "trin")
    · subst h2
      refine ⟨?_, fun name => ⟨fun h => by simp at h, ?_⟩, by simp⟩
      · intro client name shown h
        simp only [known, List.mem_cons, Prod.mk.injEq, List.not_mem_nil, or_false] at h
        rcases h with ⟨rfl, rfl, _⟩ | ⟨rfl, rfl, _⟩ | ⟨rfl, rfl, _⟩ | ⟨rfl, rfl, _⟩ | ⟨rfl, rfl, _⟩ | ⟨rfl, rfl, _⟩ <;> simp
      · rintro ⟨rfl, h⟩
        simp [known] at h
    by_cases h3 : v = (chars% "trin-execution")
    · subst h3
      refine ⟨?_, fun name => ⟨fun h => by simp at h, ?_⟩, by simp⟩
      · intro client name shown h
        simp only [known, List.mem_cons, Prod.mk.injEq, List.not_mem_nil, or_false] at h
        rcases h with ⟨rfl, rfl, _⟩ | ⟨rfl, rfl, _⟩ | ⟨rfl, rfl, _⟩ | ⟨rfl, rfl, _⟩ | ⟨rfl, rfl, _⟩ | ⟨rfl, rfl, _⟩ <;> simp
      · rintro ⟨rfl, h⟩
        simp [known] at h
    by_cases h4 : v = (chars% "shisui")
    · subst h4
      refine ⟨?_, fun name => ⟨fun h => by simp at h, ?_⟩, by simp⟩
      · intro client name shown h
        simp only [known, List.mem_cons, Prod.mk.injEq, List.not_mem_nil, or_false] at h
        rcases h with ⟨rfl, rfl, _⟩ | ⟨rfl, rfl, _⟩ | ⟨rfl, rfl, _⟩ | ⟨rfl, rfl, _⟩ | ⟨rfl, rfl, _⟩ | ⟨rfl, rfl, _⟩ <;> simp
      · rintro ⟨rfl, h⟩
        simp [known] at h
    by_cases h5 : v = (chars% "ultralight")
    · subst h5
      refine ⟨?_, fun name => ⟨fun h => by simp at h, ?_⟩, by simp⟩
      · intro client name shown h
        simp only [known, List.mem_cons, Prod.mk.injEq, List.not_mem_nil, or_false] at h
        rcases h with ⟨rfl, rfl, _⟩ | ⟨rfl, rfl, _⟩ | ⟨rfl, rfl, _⟩ | ⟨rfl, rfl, _⟩ | ⟨rfl, rfl, _⟩ | ⟨rfl, rfl, _⟩ <;> simp
      · rintro ⟨rfl, h⟩
        simp [known] at h
    by_cases h6 : v = (chars% "samba")
    · subst h6
      refine ⟨?_, fun name => ⟨fun h => by simp at h, ?_⟩, by simp⟩
      · intro client name shown h
        simp only [known, List.mem_cons, Prod.mk.injEq, List.not_mem_nil, or_false] at h
        rcases h with ⟨rfl, rfl, _⟩ | ⟨rfl, rfl, _⟩ | ⟨rfl, rfl, _⟩ | ⟨rfl, rfl, _⟩ | ⟨rfl, rfl, _⟩ | ⟨rfl, rfl, _⟩ <;> simp
      · rintro ⟨rfl, h⟩
        simp [known] at h
    rw [if_neg h1, if_neg h2, if_neg h3, if_neg h4, if_neg h5, if_neg h6]
    refine ⟨?_, ?_, ?_⟩
    · intro client name shown h
      simp only [known, List.mem_cons, Prod.mk.injEq, List.not_mem_nil, or_false] at h
      rcases h with ⟨rfl, rfl, _⟩ | ⟨rfl, rfl, _⟩ | ⟨rfl, rfl, _⟩ | ⟨rfl, rfl, _⟩ | ⟨rfl, rfl, _⟩ | ⟨rfl, rfl, _⟩ <;>
        simp [h1, h2, h3, h4, h5, h6]
    · intro name
      simp only [Client.unknown.injEq, Option.some.injEq]
      refine ⟨?_, fun h => h.1⟩
      rintro rfl
      refine ⟨rfl, ?_⟩
      intro k hk
      simp only [known, List.mem_cons, List.not_mem_nil, or_false] at hk
      rcases hk with rfl | rfl | rfl | rfl | rfl | rfl
      · exact fun h => h1 h.symm
      · exact fun h => h2 h.symm
      · exact fun h => h3 h.symm
      · exact fun h => h4 h.symm
      · exact fun h => h5 h.symm
      · exact fun h => h6 h.symm
    · simp

/-- Four offers: two peers decline for the same reason, one accepts, one fails; a fifth has another reason. -/
example : printed (fun s => s) List.reverse (chars% "0x00")
    (Report.new 5) [(.trin, .success .rateLimited), (.fluffy, .success .accepted), (.unknown none, .success .rateLimited),
      (.samba, .failed), (.unknown (some (chars% "x")), .success .alreadyStored)]
    = [chars% "Successfully offered to 1/5 peers. Content key: 0x00. Decline reasons: AlreadyStored:[Unknown(Some(x))] | RateLimited:[Trin,Unknown(None)]. Failed: 1."] := by
  decide +kernel

example : ∀ gs : Groups, (List.reverse gs).Perm gs := List.reverse_perm

end Verif.Props
