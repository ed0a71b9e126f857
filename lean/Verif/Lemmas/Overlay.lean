import Verif.Props.OverlaySpec
import Verif.Props.Wire
import Verif.Props.Replies
import Verif.Props.Offer
import Verif.Props.Ping

/-! # Lemmas about the calls on an overlay network -/

set_option linter.unusedSectionVars false

namespace Verif.Overlay
open Verif.Wire Verif.OverlaySpec
open Verif.Props (EnrLawful Buildable BuildablePing)

variable {E K : Type} [DecidableEq K] [DecidableEq E]

theorem pong_buildable {l : Ping.Local} {sup : List ExtType} {p q : PingBody}
    (h : Ping.handlePing l sup p = some q) : BuildablePing q := by
  have key : ∀ (t : ExtType) (x : PingExt.Ext), (∀ n, t ≠ .nonSupported n) → BuildablePing (Ping.createPong l t x) := by
    intro t x ht
    refine ⟨?_, fun n hn => absurd hn (ht n)⟩
    simp only [Ping.createPong, PingExt.Ext.payload, customPayload, List.length_take]; omega
  unfold Ping.handlePing at h
  split at h
  · cases h; exact key _ _ (by intro n; simp)
  · split at h
    · cases h; exact key _ _ (by intro n; simp)
    · cases h; exact key _ _ (by intro n; simp)
    · cases h; exact key _ _ (by intro n; simp)
    · cases h; exact key _ _ (by intro n; simp)
    · cases h

theorem offer_codes_length {h : Offer.Host K E} {q : List (AQ.Entry K E)} {keys : List Bytes}
    {a : Offer.Answer K} (ha : (Offer.handleOffer h q keys).2 = .ok a) :
    keys.length ≤ 64 ∧ a.codes.length = keys.length ∧
      ∃ v enr, h.enr = some enr ∧ h.version enr = .ok v ∧ a.contentKeys = acceptEncode v.isV1Enabled a.codes := by
  obtain ⟨h1, h2, h3, h4, h5, -⟩ := Props.C14_refused h q keys
  have hn : keys.length ≤ 64 := by
    apply Nat.le_of_not_lt; intro hn; rw [h1.2 hn] at ha; cases ha
  cases he : h.enr with
  | none => rw [h2.2 ⟨hn, he⟩] at ha; cases ha
  | some enr =>
    cases hv : h.version enr with
    | error e => rw [h3.2 ⟨hn, enr, e, he, hv⟩] at ha; cases ha
    | ok v =>
      have hans : Props.Answerable h keys v := ⟨hn, enr, he, hv⟩
      refine ⟨hn, ?_, v, enr, rfl, hv, (Props.C14_connection h q keys a v hans ha).2.2⟩
      cases hs : h.slot with
      | false =>
        obtain ⟨a', e1, -, -, e4, -⟩ := Props.C14_no_slot h q _ v hans hs
        rw [e1] at ha
        have := Except.ok.inj ha
        subst this
        rw [e4, List.length_replicate]
      | true => exact (Props.C14_verdicts h q _ a hs ha).1

theorem acceptEncode_length (v1 : Bool) (codes : List AcceptCode) (h : codes.length ≤ 64) :
    (acceptEncode v1 codes).length ≤ 64 := by
  unfold acceptEncode
  split
  · simpa using h
  · unfold bitlistEncode
    simp
    omega

theorem reply_fits (c : EnrCodec E) (s : Server E K) (source : Id) (r : Request) (x : Response E)
    (h : reply c s source r = .ok x) : Buildable x.toMessage ∧ (encode c x.toMessage).length ≤ 1171 := by
  unfold reply at h
  cases r with
  | ping p =>
    simp only [handleRequest] at h
    split at h
    · cases h
    · next q hq =>
      cases h
      exact ⟨pong_buildable hq, Props.C05_pong_fits c q (pong_buildable hq)⟩
  | findNodes ds =>
    cases h
    exact ⟨trivial, Props.C05_nodes_fits ..⟩
  | findContent key =>
    simp only [handleRequest] at h
    split at h
    · cases h
    · next o ho =>
      cases h
      exact ⟨trivial, Props.C05_content_fits (h := ho) ..⟩
  | offer keys =>
    simp only [handleRequest] at h
    split at h
    · cases h
    · next a ha =>
      cases h
      refine ⟨trivial, ?_⟩
      obtain ⟨hn, hl, v, enr, -, -, hk⟩ := offer_codes_length ha
      have := acceptEncode_length v.isV1Enabled a.codes (by omega)
      simp only [Response.toMessage, encode, encodeAccept, List.length_cons]
      simp [Ssz.encodeContainer, Ssz.fixedPart, Ssz.varPart, hk]
      omega
  | populatedOffer items => cases h
  | populatedOfferWithResult items => cases h

theorem received (c : EnrCodec E) (hc : EnrLawful c) (r : Request) (hb : Buildable (E := E) r.toMessage)
    (hl : (encode c r.toMessage).length < 2 ^ 32) {ρ : Type} (handle : Request → Except ReqErr ρ) :
    processOne c handle (encode c r.toMessage) = handle (arriving r) := by
  unfold processOne
  rw [Props.C04_roundtrip c hc _ hb hl]
  cases r <;> rfl

theorem askNode_eq (c : EnrCodec E) (hc : EnrLawful c) (s : Server E K) (caller : Id) (r : Request)
    (hb : Buildable (E := E) r.toMessage) (hl : (encode c r.toMessage).length < 2 ^ 32) :
    askNode c s caller r =
      match reply c s caller (arriving r) with
      | .ok x => .ok x
      | .error _ => .error .decode := by
  unfold askNode sendTalk serve
  simp only [received c hc r hb hl]
  cases hr : reply c s caller (arriving r) with
  | error e => rfl
  | ok x =>
    obtain ⟨h1, h2⟩ := reply_fits c s caller _ x hr
    simp only [interpret]
    rw [Props.C04_roundtrip c hc _ h1 (by omega)]
    cases x <;> rfl

theorem uTpWork_eq (c : EnrCodec E) (hc : EnrLawful c) (s : Server E K) (caller : Id) (r : Request)
    (hb : Buildable (E := E) r.toMessage) (hl : (encode c r.toMessage).length < 2 ^ 32) :
    uTpWork c s caller r =
      match handleRequest c s caller (arriving r) with
      | .ok (_, j) => j
      | .error _ => none := by
  unfold uTpWork work
  rw [received c hc r hb hl]
  cases handleRequest c s caller (arriving r) <;> rfl

theorem mem_distinct (d : UInt16) (ds : List UInt16) : d ∈ distinct ds ↔ d ∈ ds := by
  induction ds with
  | nil => simp [distinct]
  | cons a ds ih =>
    unfold distinct
    by_cases h : a ∈ distinct ds
    · rw [if_pos h, ih, List.mem_cons]
      constructor
      · exact Or.inr
      · rintro (rfl | h')
        · exact ih.1 h
        · exact h'
    · rw [if_neg h, List.mem_cons, List.mem_cons, ih]

theorem distinct_length (ds : List UInt16) : (distinct ds).length ≤ ds.length := by
  induction ds with
  | nil => exact Nat.le_refl _
  | cons a ds ih => unfold distinct; split <;> simp <;> omega

theorem distinct_nodup (ds : List UInt16) : (distinct ds).length = ds.length ↔ ds.Nodup := by
  induction ds with
  | nil => simp [distinct]
  | cons a ds ih =>
    have hl := distinct_length ds
    unfold distinct
    by_cases h : a ∈ distinct ds
    · rw [if_pos h, List.nodup_cons]
      constructor
      · intro he; simp at he; omega
      · rintro ⟨h', -⟩; exact absurd ((mem_distinct a ds).1 h) h'
    · rw [if_neg h, List.nodup_cons, List.length_cons, List.length_cons, Nat.add_right_cancel_iff, ih,
        ← mem_distinct a ds]
      exact ⟨fun hn => ⟨h, hn⟩, fun hn => hn.2⟩

theorem validDistances_iff (ds : List UInt16) : validDistances ds = true ↔ Askable ds := by
  unfold validDistances Askable
  by_cases h0 : ds = []
  · subst h0; simp
  have hp := List.length_pos_iff.2 h0
  rw [if_neg (by simp [h0])]
  by_cases h1 : 256 < ds.length
  · rw [if_pos h1]; simp; omega
  rw [if_neg h1]
  by_cases h2 : (ds.filter fun d => decide (256 < d.toNat)).isEmpty = false
  · rw [if_pos h2]
    simp only [Bool.false_eq_true, false_iff]
    rintro ⟨-, -, h, -⟩
    rw [List.isEmpty_eq_false_iff] at h2
    apply h2
    rw [List.filter_eq_nil_iff]
    intro d hd
    have := h d hd
    simp; omega
  rw [if_neg h2]
  have h2' : ∀ d ∈ ds, d.toNat ≤ 256 := by
    simp only [Bool.not_eq_false, List.isEmpty_iff, List.filter_eq_nil_iff, decide_eq_true_eq] at h2
    intro d hd
    have := h2 d hd
    omega
  by_cases h3 : (distinct ds).length ≠ ds.length
  · rw [if_pos h3]
    simp only [Bool.false_eq_true, false_iff]
    rintro ⟨-, -, -, h⟩
    exact h3 ((distinct_nodup ds).2 h)
  rw [if_neg h3]
  simp only [true_iff]
  exact ⟨hp, by omega, h2', (distinct_nodup ds).1 (Classical.not_not.1 h3)⟩

theorem maxBySeq_none {seq : E → Nat} {es : List E} (h : maxBySeq seq es = none) : es = [] := by
  cases es with
  | nil => rfl
  | cons e es => unfold maxBySeq at h; split at h <;> (try split at h) <;> cases h

theorem maxBySeq_newest {seq : E → Nat} {es : List E} {e : E} (h : maxBySeq seq es = some e) : Newest seq es e := by
  induction es generalizing e with
  | nil => cases h
  | cons a es ih =>
    unfold maxBySeq at h
    cases hm : maxBySeq seq es with
    | none =>
      rw [hm] at h; cases h
      rw [maxBySeq_none hm]
      exact ⟨by simp, by simp⟩
    | some m =>
      rw [hm] at h
      obtain ⟨h1, h2⟩ := ih hm
      simp only at h
      split at h
      · next hle =>
        cases h
        exact ⟨List.mem_cons_of_mem _ h1, by
          intro x hx
          rcases List.mem_cons.1 hx with rfl | hx
          · exact hle
          · exact h2 x hx⟩
      · next hlt =>
        cases h
        refine ⟨List.mem_cons_self, ?_⟩
        intro x hx
        rcases List.mem_cons.1 hx with rfl | hx
        · exact Nat.le_refl _
        · have := h2 x hx; omega

end Verif.Overlay
