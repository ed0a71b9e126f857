import Verif.Props.HistoryValidatorSpec
import Verif.Lemmas.HistoryValue

/-! # Lemmas about the validation of legacy history content -/

namespace Verif.HistoryValidator
open Verif.Ssz Verif.ContentKey Verif.HistoryValue
open Verif.HeaderValidator (HeaderProof Net Summary Trusted Verdict)

variable {Hd Tx Rc Wd : Type}

theorem enc_inj {α : Type} {w : Wire α} (hw : w.Faithful) {x y : α} (h : w.enc x = w.enc y) : x = y := by
  have h1 := hw.reads x []
  rw [List.append_nil, h] at h1
  have h2 := hw.reads y []
  rw [List.append_nil, h1] at h2
  exact Option.some.inj h2

theorem encs_inj {α : Type} {w : Wire α} (hw : w.Faithful) {x y : List α} (h : x.map w.enc = y.map w.enc) :
    x = y := by
  have h1 := decodeItems_enc hw x
  rw [h, decodeItems_enc hw y] at h1
  exact (Option.some.inj h1).symm

theorem verdict_accept {b : Bool} : verdict b = .accept ↔ b = true := by cases b <;> simp [verdict]
theorem verdict_abort (b : Bool) : verdict b ≠ .abort := by cases b <;> simp [verdict]

theorem validateBody_iff (lib : Lib Hd Tx Rc Wd) (b : Body Hd Tx Wd) (h : Hd) : validateBody lib b h = true ↔
    lib.keccak (lib.ommers.enc b.ommers) = (lib.view h).ommersHash ∧
    lib.trieRoot (b.transactions.map lib.tx.enc) = (lib.view h).transactionsRoot ∧
    ∀ ws, b.withdrawals = some ws →
      (lib.view h).withdrawalsRoot = some (lib.trieRoot (ws.map lib.withdrawal.enc)) := by
  unfold validateBody
  split
  · next h1 => simp [h1]
  · next h1 =>
    split
    · next h2 => simp [h2]
    · next h2 =>
      simp only [Decidable.not_not] at h1 h2
      split
      · next h3 => simp [h1, h2, h3]
      · next ws h3 =>
        split
        · next h4 => simp [h3, h4]
        · next root h4 => simp [h1, h2, h3, h4, eq_comm]

/-- What the decoder of a key answers, as a value. -/
theorem decode_byHash {lib : Lib Hd Tx Rc Wd} {net : Net} {k : Id} {bs : Bytes} {v : Value Hd Tx Rc Wd} :
    Value.decode lib net (.headerByHash k) bs = some v ↔
      ∃ h p, v = .header h p ∧ decodeHeaderWithProof lib net bs = some (h, p) := by
  simp only [Value.decode, Option.map_eq_some_iff]
  exact ⟨fun ⟨⟨h, p⟩, h1, h2⟩ => ⟨h, p, h2.symm, h1⟩, fun ⟨h, p, h1, h2⟩ => ⟨(h, p), h2, h1.symm⟩⟩

theorem findHeader_iff (env : Env Hd Tx Rc Wd) (k : Id) (h : Hd) : env.findHeader k = some h ↔
    ∃ bs p, env.headerContent k = some bs ∧ Value.decode env.lib env.net (.headerByHash k) bs = some (.header h p) := by
  unfold Env.findHeader
  constructor
  · intro hf
    split at hf
    · cases hf
    · next bs hc =>
      split at hf
      · next h' p hd => cases hf; exact ⟨bs, p, hc, hd⟩
      · cases hf
  · rintro ⟨bs, p, h1, h2⟩
    simp only [h1, h2]

/-- The summaries cache after the validation of a header. -/
theorem getSummary_cache (cache : List Summary) (source) (slot : Nat) :
    (HeaderValidator.getSummary cache source slot).2 = cache ∨
      ∃ e, source e = some (HeaderValidator.getSummary cache source slot).2 := by
  unfold HeaderValidator.getSummary
  split
  · exact .inl rfl
  · split
    · exact .inl rfl
    · split
      · exact .inl rfl
      · next l hl =>
        split
        · exact .inr ⟨_, hl⟩
        · exact .inl rfl

theorem validate_cache (H : Id → Id → Id) (net : Net) (t : Trusted) (cache : List Summary) (source)
    (h : HeaderValidator.Header) (p : HeaderProof) :
    (HeaderValidator.validate H net t cache source h p).2 = cache ∨
      ∃ e, source e = some (HeaderValidator.validate H net t cache source h p).2 := by
  cases p with
  | hashes p => exact .inl rfl
  | roots p => exact .inl rfl
  | capella p =>
    simp only [HeaderValidator.validate, HeaderValidator.verifyCapellaToDeneb]
    split
    · exact .inl rfl
    · split
      · exact .inl rfl
      · split
        · exact .inl rfl
        · exact getSummary_cache cache source _
  | deneb p =>
    simp only [HeaderValidator.validate, HeaderValidator.verifyPostDeneb]
    split
    · exact .inl rfl
    · split
      · exact .inl rfl
      · exact getSummary_cache cache source _

theorem content_cache (env : Env Hd Tx Rc Wd) (cache : List Summary) (key : Legacy) (bs : Bytes) :
    (validateContent env cache key bs).2 = cache ∨ ∃ e, env.source e = some (validateContent env cache key bs).2 := by
  cases key <;> simp only [validateContent]
  all_goals repeat' split
  all_goals first | exact .inl rfl | exact .inl trivial | exact validate_cache ..

end Verif.HistoryValidator
