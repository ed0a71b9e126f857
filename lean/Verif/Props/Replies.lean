import Verif.Lemmas.KBucket
import Verif.Props.Wire

/-! # C05: replies fit one packet; C16: the peers in the replies

Specification. The largest talk-response payload is 1171 bytes. A reply is the whole message, as
encoded by `Wire.encode`. A table entry is *at log distance d* when `2^(d-1) ≤ dist < 2^d`. -/

namespace Verif.Props
open Verif.Ssz Verif.Wire Verif.KBucket

variable {E : Type}

/-! ## C05 -/

private theorem nodes_size (c : EnrCodec E) (t : UInt8) (es : List E) :
    (encode c (.nodes t es)).length = 6 + sszLen c es := by
  rw [encode, List.length_cons, encodeNodes_length, sszLen_eq]; omega

private theorem enrs_size (c : EnrCodec E) (es : List E) :
    (encode c (.content (.enrs es))).length = 2 + sszLen c es := by
  rw [encode, encodeContent, List.length_cons, List.length_cons, sszLen_eq]; omega

/-- Trimming a list of records to a byte limit: the result is a prefix of the candidates whose SSZ
list encoding respects the limit, and every longer prefix breaks it. -/
theorem C05_trim (c : EnrCodec E) (limit : Nat) (cands : List E) :
    popWhile c limit cands <+: cands ∧
      (encodeVarList ((popWhile c limit cands).map c.enc)).length ≤ limit ∧
      ∀ p, p <+: cands → (popWhile c limit cands).length < p.length →
        limit < (encodeVarList (p.map c.enc)).length := by
  refine ⟨popWhile_prefix c limit cands, ?_, ?_⟩
  · rw [← sszLen_eq]; exact popWhile_le c limit cands
  · intro p hp hl
    rw [← sszLen_eq]; exact popWhile_maximal c limit cands p hp hl

/-- A NODES reply fits, whatever is in the table and whatever is asked. -/
theorem C05_nodes_fits (c : EnrCodec E) (nodeId : E → Id) (localEnr : E) (table : List (Entry E))
    (source : Id) (ds : List UInt16) :
    (encode c (.nodes 1 (handleFindNodes c nodeId localEnr table source ds))).length ≤ 1171 := by
  rw [nodes_size]
  have := popWhile_le c maxNodesEnrs
    ((nodesByDistances nodeId localEnr table ds findNodesMaxNodes).filter fun e =>
      decide (nodeId e ≠ source))
  unfold handleFindNodes
  simp only [maxNodesEnrs, maxTalkPayload] at *
  omega

/-- A NODES reply is a prefix of the candidates, and one more candidate would not have fitted. -/
theorem C05_nodes_maximal (c : EnrCodec E) (nodeId : E → Id) (localEnr : E) (table : List (Entry E))
    (source : Id) (ds : List UInt16) :
    ∃ cands, cands = (nodesByDistances nodeId localEnr table ds 32).filter
        (fun e => decide (nodeId e ≠ source)) ∧
      handleFindNodes c nodeId localEnr table source ds <+: cands ∧
      ∀ p, p <+: cands → (handleFindNodes c nodeId localEnr table source ds).length < p.length →
        1171 < (encode c (.nodes 1 p)).length := by
  refine ⟨_, rfl, popWhile_prefix _ _ _, ?_⟩
  intro p hp hl
  have := popWhile_maximal c maxNodesEnrs _ p hp hl
  rw [nodes_size]
  simp only [maxNodesEnrs, maxTalkPayload] at this
  omega

/-- Every CONTENT reply fits: stored content, connection id or records. -/
theorem C05_content_fits (c : EnrCodec E) (nodeId : E → Id) (table : List (Entry E)) (source : Id)
    (key : Option (Bool × Id)) (store : Except Unit (Option Bytes)) (permit : Bool)
    (asker : Option (Option Bool)) (cid : UInt16) (frame : Bytes → Option Bytes) (out : FcOutcome E)
    (h : handleFindContent c nodeId table source key store permit asker cid frame = .ok out) :
    (encode c (.content out.reply)).length ≤ 1171 := by
  have henrs : ∀ a i, (encode c (.content (.enrs (contentEnrs c nodeId table source a i)))).length ≤
      1171 := by
    intro a i
    rw [enrs_size]
    have := popWhile_le c maxContentPayload
      ((if a then closestTo nodeId table i findContentMaxNodes else []).filter
        fun e => decide (nodeId e ≠ source))
    unfold contentEnrs
    simp only [maxContentPayload, maxTalkPayload] at *
    omega
  have hcid : (encode c (.content (.connectionId cid))).length ≤ 1171 := by
    simp [encode, encodeContent]
  unfold handleFindContent at h
  split at h
  · cases h
  · split at h
    · split at h
      · next content hl =>
        cases h
        simp only [maxContentPayload, maxTalkPayload] at hl
        simp only [encode, encodeContent, List.length_cons]
        omega
      · split at h
        · cases h
        · cases h
        · split at h
          · cases h
          · cases h; exact hcid
        · cases h; exact hcid
    · cases h; exact henrs _ _
    · cases h; exact henrs _ _
    · cases h

/-- The records of a CONTENT reply are a prefix of the candidates, and a longer prefix would make a
message of more than 1167 bytes. (The limit in the code reserves four bytes for an offset the
message does not have, so up to four bytes of the packet stay unused.) -/
theorem C05_content_maximal (c : EnrCodec E) (nodeId : E → Id) (table : List (Entry E))
    (source : Id) (contentId : Id) :
    ∃ cands, cands = (closestTo nodeId table contentId 32).filter
        (fun e => decide (nodeId e ≠ source)) ∧
      contentEnrs c nodeId table source true contentId <+: cands ∧
      ∀ p, p <+: cands → (contentEnrs c nodeId table source true contentId).length < p.length →
        1167 < (encode c (.content (.enrs p))).length := by
  refine ⟨_, rfl, popWhile_prefix _ _ _, ?_⟩
  intro p hp hl
  have := popWhile_maximal c maxContentPayload _ p hp hl
  rw [enrs_size]
  simp only [maxContentPayload, maxTalkPayload] at this
  omega

/-- Every PONG the node can build fits. -/
theorem C05_pong_fits (c : EnrCodec E) (p : PingBody) (h : BuildablePing p) :
    (encode c (.pong p)).length ≤ 1171 := by
  have := h.1
  rw [encode, List.length_cons, encodePing_length]
  omega

/-! ## C16 -/

/-- The log distance of the specification. -/
def AtLogDistance (a b : Id) (d : Nat) : Prop :=
  1 ≤ d ∧ d ≤ 256 ∧ 2 ^ (d - 1) ≤ (a ^^^ b).toNat ∧ (a ^^^ b).toNat < 2 ^ d

private theorem atLog_iff (a b : Id) (d : Nat) :
    distLog2 (xorDistance a b) = some d ↔ AtLogDistance a b d := by
  have e : xorDistance a b = (a ^^^ b).toNat := by rw [xorDistance_eq, BitVec.toNat_xor]
  rw [e]
  constructor
  · intro h
    exact distLog2_spec (a ^^^ b).isLt h
  · rintro ⟨h1, h2, h3, h4⟩
    exact distLog2_of_bracket h1 h2 h3 h4

/-- A FIND_NODES answer has at most 32 records, none of them the asker's; each is the local record,
and then distance 0 was requested, or that of a connected peer of the table at one of the requested
log distances. -/
theorem C16_find_nodes_sound (c : EnrCodec E) (nodeId : E → Id) (localEnr : E)
    (table : List (Entry E)) (source : Id) (ds : List UInt16) :
    (handleFindNodes c nodeId localEnr table source ds).length ≤ 32 ∧
    ∀ e ∈ handleFindNodes c nodeId localEnr table source ds, nodeId e ≠ source ∧
      ((e = localEnr ∧ 0 ∈ ds) ∨
        ∃ entry ∈ table, entry.enr = e ∧ entry.connected = true ∧
          ∃ d ∈ ds, AtLogDistance (nodeId localEnr) (nodeId e) d.toNat) := by
  have hpre := popWhile_prefix c maxNodesEnrs
    ((nodesByDistances nodeId localEnr table ds findNodesMaxNodes).filter fun e =>
      decide (nodeId e ≠ source))
  have hn := nodesByDistances_eq nodeId localEnr table ds (limit := findNodesMaxNodes) (by decide)
  constructor
  · refine Nat.le_trans hpre.length_le (Nat.le_trans (List.length_filter_le _ _) ?_)
    rw [hn, List.length_take]; exact Nat.min_le_left _ _
  · intro e he
    have he := hpre.subset he
    obtain ⟨he, hs⟩ := List.mem_filter.1 he
    refine ⟨of_decide_eq_true hs, ?_⟩
    rw [hn] at he
    obtain ⟨d, hd, hed⟩ := List.mem_flatMap.1 (List.mem_of_mem_take he)
    rw [mem_dedup, mem_sortDistances] at hd
    unfold atDistance at hed
    split at hed
    · next h0 =>
      left
      subst h0
      exact ⟨List.mem_singleton.1 hed, hd⟩
    · right
      obtain ⟨entry, hen, rfl⟩ := List.mem_map.1 hed
      obtain ⟨hb, hc⟩ := List.mem_filter.1 hen
      obtain ⟨ht, hl⟩ := List.mem_filter.1 (List.mem_of_mem_take hb)
      exact ⟨entry, ht, rfl, hc, d, hd, (atLog_iff _ _ _).1 (of_decide_eq_true hl)⟩

/-- When distance 0 is requested by someone else, the local record is in the answer, first, provided
it fits the packet at all. -/
theorem C16_find_nodes_local (c : EnrCodec E) (nodeId : E → Id) (localEnr : E)
    (table : List (Entry E)) (source : Id) (ds : List UInt16) (h0 : 0 ∈ ds)
    (hs : nodeId localEnr ≠ source) (hfit : 4 + (c.enc localEnr).length ≤ 1165) :
    (handleFindNodes c nodeId localEnr table source ds).head? = some localEnr := by
  have hn := nodesByDistances_eq nodeId localEnr table ds (limit := findNodesMaxNodes) (by decide)
  have hh := head_zero h0
  obtain ⟨t, ht⟩ : ∃ t, dedup (sortDistances ds) = 0 :: t := by
    cases hd : dedup (sortDistances ds) with
    | nil => rw [hd] at hh; cases hh
    | cons a t => rw [hd] at hh; cases hh; exact ⟨t, rfl⟩
  have hcand : ∃ r, (nodesByDistances nodeId localEnr table ds findNodesMaxNodes).filter
      (fun e => decide (nodeId e ≠ source)) = localEnr :: r := by
    rw [hn, ht, List.flatMap_cons]
    simp only [atDistance, if_true, findNodesMaxNodes, List.singleton_append, List.take_succ_cons]
    rw [List.filter_cons, if_pos (by simpa using hs)]
    exact ⟨_, rfl⟩
  obtain ⟨r, hr⟩ := hcand
  unfold handleFindNodes
  rw [hr]
  have hpre := popWhile_prefix c maxNodesEnrs (localEnr :: r)
  cases hp : popWhile c maxNodesEnrs (localEnr :: r) with
  | nil =>
    have := popWhile_maximal c maxNodesEnrs (localEnr :: r) [localEnr]
      ⟨r, rfl⟩ (by rw [hp]; simp)
    simp only [sszLen, List.map_cons, List.map_nil, List.sum_cons, List.sum_nil, maxNodesEnrs,
      maxTalkPayload] at this
    omega
  | cons a l =>
    rw [hp] at hpre
    have := (List.cons_prefix_cons.1 hpre).1
    rw [this]; rfl

/-- No peer is left out without need: when the eligible peers and the local record stay below the
limits of 32 records and 1165 bytes, the answer has all of them. (The hypothesis on the size of a
bucket holds in discv5, where it has at most 16 entries.) -/
theorem C16_find_nodes_complete (c : EnrCodec E) (nodeId : E → Id) (localEnr : E)
    (table : List (Entry E)) (source : Id) (ds : List UInt16) (eligible : List (Entry E))
    (hel : ∀ e, e ∈ eligible ↔ e ∈ table ∧ e.connected = true ∧
      ∃ d ∈ ds, AtLogDistance (nodeId localEnr) (nodeId e.enr) d.toNat)
    (hsub : eligible.Sublist table) (htab : table.Nodup)
    (hbucket : ∀ d : UInt16, (table.filter fun e =>
      distLog2 (xorDistance (nodeId localEnr) (nodeId e.enr)) = some d.toNat).length ≤ 32)
    (hcount : eligible.length < 32)
    (hsize : 4 + (c.enc localEnr).length + (eligible.map fun e => 4 + (c.enc e.enr).length).sum ≤ 1165)
    (e : Entry E) (he : e ∈ eligible) (hs : nodeId e.enr ≠ source) :
    e.enr ∈ handleFindNodes c nodeId localEnr table source ds := by
  have hn := nodesByDistances_eq nodeId localEnr table ds (limit := findNodesMaxNodes) (by decide)
  have hnd := dedup_nodup (sorted_sortDistances ds)
  -- the entries found at the nonzero distances are the eligible ones
  let p : UInt16 → Entry E → Bool := fun d e => decide (d ≠ 0) && e.connected &&
    decide (distLog2 (xorDistance (nodeId localEnr) (nodeId e.enr)) = some d.toNat)
  have hperm := flatMap_filter_perm p (by
    intro d d' a h1 h2
    simp only [p, Bool.and_eq_true, decide_eq_true_eq] at h1 h2
    have := h1.2.symm.trans h2.2
    exact UInt16.toNat_inj.1 (Option.some.inj this)) table (dedup (sortDistances ds)) hnd
  have hat : ∀ d : UInt16, d ≠ 0 → atDistance nodeId localEnr table findNodesMaxNodes d =
      (table.filter (p d)).map (·.enr) := by
    intro d hd
    unfold atDistance
    rw [if_neg hd]
    unfold bucket
    rw [List.take_of_length_le (hbucket d), List.filter_filter]
    congr 1
    apply List.filter_congr
    intro a _
    simp [p, hd]
  have hz : ∀ a, p 0 a = false := by intro a; simp [p]
  -- total length and size of all candidates
  have key : ∀ (w : E → Nat) (l : List UInt16), l.Nodup →
      ((l.flatMap (atDistance nodeId localEnr table findNodesMaxNodes)).map w).sum ≤
        w localEnr + ((l.flatMap fun d => table.filter (p d)).map fun e => w e.enr).sum ∧
      (0 ∉ l → ((l.flatMap (atDistance nodeId localEnr table findNodesMaxNodes)).map w).sum =
        ((l.flatMap fun d => table.filter (p d)).map fun e => w e.enr).sum) := by
    intro w l
    induction l with
    | nil => intro _; simp
    | cons d l ih =>
      intro hl
      rw [List.nodup_cons] at hl
      obtain ⟨ih1, ih2⟩ := ih hl.2
      simp only [List.flatMap_cons, List.map_append, List.sum_append_nat]
      by_cases hd : d = 0
      · subst hd
        have e1 : atDistance nodeId localEnr table findNodesMaxNodes 0 = [localEnr] := by
          simp [atDistance]
        have e2 : table.filter (p 0) = [] := by
          rw [List.filter_eq_nil_iff]; intro a _; rw [hz]; simp
        rw [e1, e2, ih2 hl.1]
        simp
      · rw [hat d hd]
        simp only [List.map_map, List.mem_cons, not_or]
        refine ⟨?_, ?_⟩
        · have : (List.map (w ∘ fun x : Entry E => x.enr) (table.filter (p d))).sum =
            (List.map (fun e : Entry E => w e.enr) (table.filter (p d))).sum := rfl
          omega
        · rintro ⟨_, h0⟩
          rw [ih2 h0]; rfl
  have heq : eligible.Perm (table.filter fun a => (dedup (sortDistances ds)).any fun d => p d a) := by
    rw [List.perm_ext_iff_of_nodup (htab.sublist hsub) (htab.sublist List.filter_sublist)]
    intro a
    rw [hel, List.mem_filter, List.any_eq_true]
    constructor
    · rintro ⟨h1, h2, d, h3, h4⟩
      refine ⟨h1, d, by rw [mem_dedup, mem_sortDistances]; exact h3, ?_⟩
      have : d ≠ 0 := by rintro rfl; have := h4.1; simp at this
      simp [p, h2, this, (atLog_iff _ _ _).2 h4]
    · rintro ⟨h1, d, h3, h4⟩
      rw [mem_dedup, mem_sortDistances] at h3
      simp only [p, Bool.and_eq_true, decide_eq_true_eq] at h4
      exact ⟨h1, h4.1.2, d, h3, (atLog_iff _ _ _).1 h4.2⟩
  have htot : ∀ w : E → Nat,
      (((dedup (sortDistances ds)).flatMap
        (atDistance nodeId localEnr table findNodesMaxNodes)).map w).sum ≤
        w localEnr + (eligible.map fun e => w e.enr).sum := by
    intro w
    have h1 := (key w _ hnd).1
    have h2 := ((heq.trans hperm.symm).map fun e => w e.enr).sum_nat
    omega
  have hlen := htot (fun _ => 1)
  simp only [List.map_const', List.sum_replicate_nat, Nat.mul_one] at hlen
  have hsz : sszLen c ((dedup (sortDistances ds)).flatMap
      (atDistance nodeId localEnr table findNodesMaxNodes)) ≤ 1165 :=
    Nat.le_trans (htot fun e => 4 + (c.enc e).length) hsize
  have htake : nodesByDistances nodeId localEnr table ds findNodesMaxNodes =
      (dedup (sortDistances ds)).flatMap (atDistance nodeId localEnr table findNodesMaxNodes) := by
    rw [hn, List.take_of_length_le]
    exact Nat.le_trans hlen (by show 1 + eligible.length ≤ 32; omega)
  unfold handleFindNodes
  rw [popWhile_eq_self]
  · rw [List.mem_filter]
    refine ⟨?_, by simpa using hs⟩
    rw [htake, List.mem_flatMap]
    obtain ⟨h1, h2, d, h3, h4⟩ := (hel e).1 he
    have hd : d ≠ 0 := by rintro rfl; have := h4.1; simp at this
    refine ⟨d, by rw [mem_dedup, mem_sortDistances]; exact h3, ?_⟩
    rw [hat d hd, List.mem_map]
    refine ⟨e, List.mem_filter.2 ⟨h1, ?_⟩, rfl⟩
    simp [p, h2, hd, (atLog_iff _ _ _).2 h4]
  · rw [htake]
    exact Nat.le_trans (sszLen_sublist c List.filter_sublist) hsz

/-- A FIND_CONTENT answer without the content: at most 32 records of connected peers other than the
asker, sorted by distance to the content, and no omitted connected peer other than the asker is
closer than a listed one. -/
theorem C16_find_content_closest (c : EnrCodec E) (nodeId : E → Id) (table : List (Entry E))
    (source contentId : Id) (ans : List E)
    (h : ans = contentEnrs c nodeId table source true contentId) :
    ans.length ≤ 32 ∧
    (∀ e ∈ ans, nodeId e ≠ source ∧ ∃ entry ∈ table, entry.enr = e ∧ entry.connected = true) ∧
    ans.Pairwise (fun a b => (contentId ^^^ nodeId a).toNat ≤ (contentId ^^^ nodeId b).toNat) ∧
    ∀ entry ∈ table, entry.connected = true → nodeId entry.enr ≠ source → entry.enr ∉ ans →
      ∀ e ∈ ans, (contentId ^^^ nodeId e).toNat ≤ (contentId ^^^ nodeId entry.enr).toNat := by
  subst h
  have hx : ∀ a b : Id, xorDistance a b = (a ^^^ b).toNat := by
    intro a b; rw [xorDistance_eq, BitVec.toNat_xor]
  obtain ⟨sorted, hp, hs, ht⟩ := closestTo_perm_prefix nodeId table contentId
  have hpre := popWhile_prefix c maxContentPayload
    ((closestTo nodeId table contentId findContentMaxNodes).filter fun e => decide (nodeId e ≠ source))
  -- the answer is a prefix of the filtered sorted list
  have hpre2 : contentEnrs c nodeId table source true contentId <+:
      (sorted.map (·.enr)).filter fun e => decide (nodeId e ≠ source) := by
    refine List.IsPrefix.trans hpre ?_
    rw [ht]
    apply List.IsPrefix.filter
    exact (List.take_prefix _ _).map _
  have hsorted : ((sorted.map (·.enr)).filter fun e => decide (nodeId e ≠ source)).Pairwise
      (fun a b => (contentId ^^^ nodeId a).toNat ≤ (contentId ^^^ nodeId b).toNat) := by
    apply List.Pairwise.filter
    rw [List.pairwise_map]
    exact hs.imp (fun {a b} h => by rw [hx, hx] at h; exact h)
  refine ⟨?_, ?_, hsorted.sublist hpre2.sublist, ?_⟩
  · refine Nat.le_trans hpre.length_le (Nat.le_trans (List.length_filter_le _ _) ?_)
    rw [ht, List.length_map, List.length_take]; exact Nat.min_le_left _ _
  · intro e he
    obtain ⟨hm, hne⟩ := List.mem_filter.1 (hpre2.subset he)
    obtain ⟨entry, hen, rfl⟩ := List.mem_map.1 hm
    obtain ⟨h1, h2⟩ := List.mem_filter.1 (hp.mem_iff.1 hen)
    exact ⟨of_decide_eq_true hne, entry, h1, rfl, h2⟩
  · intro entry hen hc hne hout e he
    obtain ⟨rest, hrest⟩ := hpre2
    have hmem : entry.enr ∈ (sorted.map (·.enr)).filter fun e => decide (nodeId e ≠ source) := by
      rw [List.mem_filter]
      exact ⟨List.mem_map.2 ⟨entry, hp.mem_iff.2 (List.mem_filter.2 ⟨hen, hc⟩), rfl⟩, by simpa using hne⟩
    rw [← hrest] at hmem hsorted
    rcases List.mem_append.1 hmem with hm | hm
    · exact absurd hm hout
    · exact (List.pairwise_append.1 hsorted).2.2 e he _ hm

/-- If at most 32 peers are connected and their records fit, all of them (but the asker) are listed. -/
theorem C16_find_content_complete (c : EnrCodec E) (nodeId : E → Id) (table : List (Entry E))
    (source contentId : Id) (hcount : (table.filter (·.connected)).length ≤ 32)
    (hsize : ((table.filter (·.connected)).map fun e => 4 + (c.enc e.enr).length).sum ≤ 1165)
    (entry : Entry E) (hen : entry ∈ table) (hc : entry.connected = true)
    (hne : nodeId entry.enr ≠ source) :
    entry.enr ∈ contentEnrs c nodeId table source true contentId := by
  obtain ⟨sorted, hp, hs, ht⟩ := closestTo_perm_prefix nodeId table contentId
  unfold contentEnrs
  have hall : closestTo nodeId table contentId findContentMaxNodes = sorted.map (·.enr) := by
    rw [ht, List.take_of_length_le]
    rw [hp.length_eq]; exact hcount
  simp only [if_true]
  rw [hall, popWhile_eq_self]
  · rw [List.mem_filter]
    exact ⟨List.mem_map.2 ⟨entry, hp.mem_iff.2 (List.mem_filter.2 ⟨hen, hc⟩), rfl⟩, by simpa using hne⟩
  · refine Nat.le_trans (sszLen_sublist c List.filter_sublist) ?_
    have h1 := (hp.map fun e => 4 + (c.enc e.enr).length).sum_nat
    have h2 : sszLen c (sorted.map (·.enr)) = (sorted.map fun e => 4 + (c.enc e.enr).length).sum := by
      simp [sszLen, List.map_map, Function.comp_def]
    rw [h2, h1]
    exact hsize

/-- Content that is not placed by radius is answered with no records. -/
theorem C16_find_content_no_radius (c : EnrCodec E) (nodeId : E → Id) (table : List (Entry E))
    (source contentId : Id) : contentEnrs c nodeId table source false contentId = [] := by
  unfold contentEnrs
  rw [popWhile_eq_self]
  · rfl
  · simp [sszLen]

/-- The kind of answer: stored content that fits is returned itself, larger content over a
connection, and records exactly when the content is missing or no transfer slot is free. -/
theorem C16_find_content_kind (c : EnrCodec E) (nodeId : E → Id) (table : List (Entry E))
    (source : Id) (affected : Bool) (contentId : Id) (stored : Option Bytes) (permit : Bool)
    (asker : Option (Option Bool)) (cid : UInt16) (frame : Bytes → Option Bytes) (out : FcOutcome E)
    (h : handleFindContent c nodeId table source (some (affected, contentId)) (.ok stored) permit
      asker cid frame = .ok out) :
    (∀ x, out.reply = .content x ↔ (stored = some x ∧ permit = true ∧ x.length ≤ 1165)) ∧
    (∀ i, out.reply = .connectionId i →
      ∃ x, stored = some x ∧ 1165 < x.length ∧ i = cid ∧
        ((asker = some (some true) ∧ ∃ p, frame x = some p ∧ out.utp = some p) ∨
         (asker = some (some false) ∧ out.utp = some x))) ∧
    (∀ es, out.reply = .enrs es ↔ ((stored = none ∨ permit = false) ∧
      es = contentEnrs c nodeId table source affected contentId)) := by
  simp only [handleFindContent] at h
  cases stored with
  | none => simp only at h; cases h; simp; exact fun es => eq_comm
  | some x =>
    cases permit with
    | false => simp only at h; cases h; simp; exact fun es => eq_comm
    | true =>
      simp only at h
      split at h
      · next hl =>
        cases h
        simp only [maxContentPayload, maxTalkPayload] at hl
        simp
        omega
      · next hl =>
        simp only [maxContentPayload, maxTalkPayload] at hl
        have hl : 1165 < x.length := by omega
        split at h
        · cases h
        · cases h
        · cases hf : frame x with
          | none => simp [hf] at h
          | some p =>
            simp only [hf] at h
            cases h
            refine ⟨?_, ?_, by simp⟩
            · simp; exact hl
            · intro i hi; cases hi
              exact ⟨x, rfl, hl, rfl, Or.inl ⟨rfl, p, hf, rfl⟩⟩
        · cases h
          refine ⟨?_, ?_, by simp⟩
          · simp; exact hl
          · intro i hi; cases hi
            exact ⟨x, rfl, hl, rfl, Or.inr ⟨rfl, rfl⟩⟩

/-- A key that does not decode or a failing store gives an error, never an answer. -/
theorem C16_find_content_error (c : EnrCodec E) (nodeId : E → Id) (table : List (Entry E))
    (source : Id) (key : Option (Bool × Id)) (store : Except Unit (Option Bytes)) (permit : Bool)
    (asker : Option (Option Bool)) (cid : UInt16) (frame : Bytes → Option Bytes)
    (h : key = none ∨ store = .error ()) :
    ∃ err, handleFindContent c nodeId table source key store permit asker cid frame = .error err := by
  unfold handleFindContent
  rcases h with rfl | rfl
  · exact ⟨_, rfl⟩
  · cases key with
    | none => exact ⟨_, rfl⟩
    | some k => exact ⟨_, rfl⟩

/-! Non-vacuity: records are 256-bit ids here, encoded in 300 bytes each, so three fit a packet. -/

private def idCodec : EnrCodec Id :=
  ⟨fun _ => List.replicate 300 0, fun _ => none, fun _ => none⟩

private def tbl : List (Entry Id) :=
  [⟨9, true, 0⟩, ⟨2, true, 0⟩, ⟨3, false, 0⟩, ⟨1, true, 0⟩, ⟨16, true, 0⟩]

example : handleFindNodes idCodec id 0 tbl 1 [2, 0, 1, 2] = [0, 2] := by decide +kernel
example : handleFindNodes idCodec id 0 tbl 77 [5, 4, 2, 1] = [1, 2, 9] := by decide +kernel
example : contentEnrs idCodec id tbl 9 true 3 = [2, 1, 16] := by decide +kernel
example : (handleFindContent idCodec id tbl 9 (some (true, 3)) (.ok (some [1, 2])) true none 5
    (fun _ => none)).toOption = some ⟨.content [1, 2], none⟩ := by decide +kernel

end Verif.Props
