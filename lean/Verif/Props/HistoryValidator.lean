import Verif.Lemmas.HistoryValidator
import Verif.Props.HistoryValue
import Verif.Props.PreMerge
import Verif.Props.PostMerge

/-! # C58: validation of legacy history content -/

namespace Verif.Props
open Verif Verif.Ssz Verif.ContentKey Verif.HistoryValue Verif.HistoryValidator
open Verif.HeaderValidator (HeaderProof Net Summary Trusted Verdict Record decodedKind RootsProof)
open Verif.Merkle

variable {Hd Tx Rc Wd : Type} (env : Env Hd Tx Rc Wd) (cache : List Summary)

/-! ## Headers -/

/-- A header is accepted under a hash exactly if it is read from the content, has that hash and its proof
is accepted (for which see C31, C32). -/
theorem C58_by_hash (k : Id) (bs : Bytes) : Accepts env cache (.headerByHash k) bs ↔
    ∃ h p, Value.decode env.lib env.net (.headerByHash k) bs = some (.header h p) ∧
      env.lib.keccak (env.lib.header.enc h) = k ∧
      (HeaderValidator.validate env.H env.net env.trusted cache env.source (env.lib.hdr h) p).1 = .accept := by
  unfold Accepts
  simp only [validateContent, Value.decode]
  cases hd : decodeHeaderWithProof env.lib env.net bs with
  | none => simp
  | some x =>
    obtain ⟨h, p⟩ := x
    simp only [Option.map_some]
    split
    · next hne =>
      simp only [reduceCtorEq, false_iff]
      rintro ⟨h', p', he, hk, _⟩
      cases he
      exact hne hk
    · next heq =>
      rw [Decidable.not_not] at heq
      constructor
      · intro hv; exact ⟨h, p, rfl, heq, hv⟩
      · rintro ⟨h', p', he, _, hv⟩; cases he; exact hv

/-- The same under a number. -/
theorem C58_by_number (n : UInt64) (bs : Bytes) : Accepts env cache (.headerByNumber n) bs ↔
    ∃ h p, Value.decode env.lib env.net (.headerByNumber n) bs = some (.header h p) ∧
      (env.lib.view h).number = n ∧
      (HeaderValidator.validate env.H env.net env.trusted cache env.source (env.lib.hdr h) p).1 = .accept := by
  unfold Accepts
  simp only [validateContent, Value.decode]
  cases hd : decodeHeaderWithProof env.lib env.net bs with
  | none => simp
  | some x =>
    obtain ⟨h, p⟩ := x
    simp only [Option.map_some]
    split
    · next hne =>
      simp only [reduceCtorEq, false_iff]
      rintro ⟨h', p', he, hk, _⟩
      cases he
      exact hne hk
    · next heq =>
      rw [Decidable.not_not] at heq
      constructor
      · intro hv; exact ⟨h, p, rfl, heq, hv⟩
      · rintro ⟨h', p', he, _, hv⟩; cases he; exact hv

/-- There is at most one header for a hash, whatever is known at the time: two headers accepted under the same
hash are the same, or a hash collision. -/
theorem C58_hash_unique (hl : env.lib.Faithful) (env' : Env Hd Tx Rc Wd) (cache' : List Summary)
    (hlib : env'.lib = env.lib) (hnet : env'.net = env.net) (k : Id) (bs bs' : Bytes)
    (ha : Accepts env cache (.headerByHash k) bs) (ha' : Accepts env' cache' (.headerByHash k) bs') :
    ∃ h p h' p', Value.decode env.lib env.net (.headerByHash k) bs = some (.header h p) ∧
      Value.decode env.lib env.net (.headerByHash k) bs' = some (.header h' p') ∧
      (h = h' ∨ HashCollision env.lib (env.lib.header.enc h) (env.lib.header.enc h')) := by
  obtain ⟨h, p, h1, h2, _⟩ := (C58_by_hash env cache k bs).mp ha
  obtain ⟨h', p', h1', h2', _⟩ := (C58_by_hash env' cache' k bs').mp ha'
  rw [hlib, hnet] at h1'
  rw [hlib] at h2'
  refine ⟨h, p, h', p', h1, h1', ?_⟩
  by_cases he : env.lib.header.enc h = env.lib.header.enc h'
  · exact .inl (enc_inj hl.header he)
  · exact .inr ⟨he, h2.trans h2'.symm⟩

/-- A header of before the merge that is accepted under a number is the one of the chain: the one whose hash
is at that place of the trusted accumulator (or a collision, of the tree hash or of the block hash, is
exhibited). -/
theorem C58_premerge_by_number (hl : env.lib.Faithful) (n : UInt64) (bs : Bytes) (records : List Record)
    (r : Record) (hd : Hd) (ha : Accepts env cache (.headerByNumber n) bs)
    (htrusted : env.trusted.epochs[n.toNat / 8192]? = some (epochRoot env.H records))
    (hr : records[n.toNat % 8192]? = some r) (hhash : env.lib.keccak (env.lib.header.enc hd) = r.blockHash) :
    ∃ h p, Value.decode env.lib env.net (.headerByNumber n) bs = some (.header h p) ∧
      ∀ q, p = .hashes q → h = hd ∨ HashCollision env.lib (env.lib.header.enc h) (env.lib.header.enc hd) ∨
        CollisionBetween env.H (branchPairs env.H (env.lib.hdr h).hash q.toList (2 * (2 * 8192 + n.toNat % 8192)))
          (epochPairs env.H records) := by
  obtain ⟨h, p, h1, h2, h3⟩ := (C58_by_number env cache n bs).mp ha
  refine ⟨h, p, h1, ?_⟩
  rintro q rfl
  have hn : (env.lib.hdr h).number = n := h2
  have h4 := C31_sound env.H env.net env.trusted cache env.source (env.lib.hdr h) q records r h3
    (by rw [hn]; exact htrusted) (by rw [hn]; exact hr)
  rw [hn] at h4
  rcases h4.2 with h5 | h5
  · by_cases he : env.lib.header.enc h = env.lib.header.enc hd
    · exact .inl (enc_inj hl.header he)
    · exact .inr (.inl ⟨he, Eq.trans h5 hhash.symm⟩)
  · exact .inr (.inr h5)

/-- A header under a number that is read with a proof for the time before the merge is exactly one whose
number and timestamp are before the forks. -/
theorem C58_premerge_kind (hl : env.lib.Faithful) (n : UInt64) (bs : Bytes) (h : Hd) (p : HeaderProof)
    (hd : Value.decode env.lib env.net (.headerByNumber n) bs = some (.header h p)) :
    (∃ q, p = .hashes q) ↔ (env.lib.view h).number < env.net.parisBlock ∧
      (env.lib.view h).timestamp < env.net.shanghaiTime ∧ (env.lib.view h).timestamp < env.net.cancunTime := by
  obtain ⟨hb, _⟩ := C57_decode_partial hl hd
  cases hb with
  | byNumber _ _ _ _ hk =>
    have e : (∃ q, p = .hashes q) ↔ p.kind = .hashes := by
      cases p <;> simp [HeaderValidator.HeaderProof.kind]
    rw [e, hk]
    simp only [decodedKind, HeaderValidator.Net.cancun, HeaderValidator.Net.shanghai, HeaderValidator.Net.paris,
      Lib.hdr, decide_eq_true_eq, ← UInt64.not_le]
    by_cases h1 : env.net.cancunTime ≤ (env.lib.view h).timestamp
    · simp [h1]
    · by_cases h2 : env.net.shanghaiTime ≤ (env.lib.view h).timestamp
      · simp [h1, h2]
      · by_cases h3 : env.net.parisBlock ≤ (env.lib.view h).number
        · simp [h1, h2, h3]
        · simp [h1, h2, h3]

/-! ## Bodies and receipts -/

/-- A body is accepted exactly if it is read from the content, and the header that the history network answers
for the hash has the same hash of uncles, the same transactions root and, if there are withdrawals, the same
withdrawals root. -/
theorem C58_body (k : Id) (bs : Bytes) : Accepts env cache (.blockBody k) bs ↔
    ∃ b hb h p, Value.decode env.lib env.net (.blockBody k) bs = some (.body b) ∧
      env.headerContent k = some hb ∧ Value.decode env.lib env.net (.headerByHash k) hb = some (.header h p) ∧
      (env.lib.view h).ommersHash = env.lib.keccak (env.lib.ommers.enc b.ommers) ∧
      (env.lib.view h).transactionsRoot = env.lib.trieRoot (b.transactions.map env.lib.tx.enc) ∧
      ∀ ws, b.withdrawals = some ws →
        (env.lib.view h).withdrawalsRoot = some (env.lib.trieRoot (ws.map env.lib.withdrawal.enc)) := by
  unfold Accepts
  simp only [validateContent]
  have e : Value.decode env.lib env.net (.blockBody k) bs = (decodeBody env.lib bs).map .body := rfl
  rw [e]
  cases hd : decodeBody env.lib bs with
  | none => simp
  | some b =>
    simp only [Option.map_some]
    cases hf : env.findHeader k with
    | none =>
      simp only [reduceCtorEq, false_iff]
      rintro ⟨_, hb, h, p, _, h1, h2, _⟩
      have := (findHeader_iff env k h).mpr ⟨hb, p, h1, h2⟩
      rw [hf] at this
      cases this
    | some h =>
      rw [verdict_accept, validateBody_iff]
      constructor
      · rintro ⟨h1, h2, h3⟩
        obtain ⟨hb, p, h4, h5⟩ := (findHeader_iff env k h).mp hf
        exact ⟨b, hb, h, p, rfl, h4, h5, h1.symm, h2.symm, h3⟩
      · rintro ⟨b', hb, h', p, h0, h4, h5, h1, h2, h3⟩
        cases h0
        have := (findHeader_iff env k h').mpr ⟨hb, p, h4, h5⟩
        rw [hf] at this
        cases this
        exact ⟨h1.symm, h2.symm, h3⟩

/-- Receipts are accepted exactly if they are read from the content and the header that the history network
answers for the hash has their root. -/
theorem C58_receipts (k : Id) (bs : Bytes) : Accepts env cache (.blockReceipts k) bs ↔
    ∃ rs hb h p, Value.decode env.lib env.net (.blockReceipts k) bs = some (.receipts rs) ∧
      env.headerContent k = some hb ∧ Value.decode env.lib env.net (.headerByHash k) hb = some (.header h p) ∧
      CommitsReceipts env.lib h rs := by
  unfold Accepts
  simp only [validateContent]
  have e : Value.decode env.lib env.net (.blockReceipts k) bs = (decodeReceipts env.lib bs).map .receipts := rfl
  rw [e]
  cases hd : decodeReceipts env.lib bs with
  | none => simp
  | some rs =>
    simp only [Option.map_some]
    cases hf : env.findHeader k with
    | none =>
      simp only [reduceCtorEq, false_iff]
      rintro ⟨_, hb, h, p, _, h1, h2, _⟩
      have := (findHeader_iff env k h).mpr ⟨hb, p, h1, h2⟩
      rw [hf] at this
      cases this
    | some h =>
      rw [verdict_accept]
      unfold validateReceipts
      rw [decide_eq_true_eq]
      constructor
      · intro h1
        obtain ⟨hb, p, h4, h5⟩ := (findHeader_iff env k h).mp hf
        exact ⟨rs, hb, h, p, rfl, h4, h5, h1.symm⟩
      · rintro ⟨b', hb, h', p, h0, h4, h5, h1⟩
        cases h0
        have := (findHeader_iff env k h').mpr ⟨hb, p, h4, h5⟩
        rw [hf] at this
        cases this
        exact h1.symm

/-- The header that the history network answers for a hash is the one with this hash, or a collision. -/
theorem answered_header (hl : env.lib.Faithful) (hv : HeadersValidated env) {k : Id} {hb : Bytes} {h hd : Hd}
    {p : HeaderProof} (h1 : env.headerContent k = some hb)
    (h2 : Value.decode env.lib env.net (.headerByHash k) hb = some (.header h p))
    (hk : env.lib.keccak (env.lib.header.enc hd) = k) :
    h = hd ∨ HashCollision env.lib (env.lib.header.enc h) (env.lib.header.enc hd) := by
  obtain ⟨source, headers, cache, ha⟩ := hv k hb h1
  obtain ⟨h', p', h3, h4, _⟩ := (C58_by_hash _ cache k hb).mp ha
  simp only at h3 h4
  rw [h2] at h3
  cases h3
  by_cases he : env.lib.header.enc h = env.lib.header.enc hd
  · exact .inl (enc_inj hl.header he)
  · exact .inr ⟨he, h4.trans hk.symm⟩

/-- Let `hd` and `true` be the header and the body of the block with hash `k`. If the headers that the history
network answers are validated, then a body accepted for `k` has the transactions and the uncles of that block,
and its withdrawals or none (or a collision is exhibited). -/
theorem C58_body_sound (hl : env.lib.Faithful) (hv : HeadersValidated env) (k : Id) (bs : Bytes) (hd : Hd)
    (true : Body Hd Tx Wd) (hk : env.lib.keccak (env.lib.header.enc hd) = k)
    (hc : CommitsBody env.lib hd true) (ha : Accepts env cache (.blockBody k) bs) :
    ∃ b, Value.decode env.lib env.net (.blockBody k) bs = some (.body b) ∧
      ((b.transactions = true.transactions ∧ b.ommers = true.ommers ∧
          (b.withdrawals = true.withdrawals ∨ b.withdrawals = none)) ∨
        (∃ hb h p, env.headerContent k = some hb ∧
          Value.decode env.lib env.net (.headerByHash k) hb = some (.header h p) ∧
          HashCollision env.lib (env.lib.header.enc h) (env.lib.header.enc hd)) ∨
        HashCollision env.lib (env.lib.ommers.enc b.ommers) (env.lib.ommers.enc true.ommers) ∨
        RootCollision env.lib (b.transactions.map env.lib.tx.enc) (true.transactions.map env.lib.tx.enc) ∨
        ∃ ws ws', b.withdrawals = some ws ∧ true.withdrawals = some ws' ∧
          RootCollision env.lib (ws.map env.lib.withdrawal.enc) (ws'.map env.lib.withdrawal.enc)) := by
  obtain ⟨b, hb, h, p, h1, h2, h3, h4, h5, h6⟩ := (C58_body env cache k bs).mp ha
  refine ⟨b, h1, ?_⟩
  rcases answered_header env hl hv h2 h3 hk with rfl | hcol
  · by_cases ho : env.lib.ommers.enc b.ommers = env.lib.ommers.enc true.ommers
    · by_cases ht : b.transactions.map env.lib.tx.enc = true.transactions.map env.lib.tx.enc
      · cases hw : b.withdrawals with
        | none => exact .inl ⟨encs_inj hl.tx ht, enc_inj hl.ommers ho, .inr rfl⟩
        | some ws =>
          have h7 := h6 ws hw
          rw [hc.withdrawals] at h7
          obtain ⟨ws', h8, h9⟩ := Option.map_eq_some_iff.mp h7
          by_cases he : ws.map env.lib.withdrawal.enc = ws'.map env.lib.withdrawal.enc
          · refine .inl ⟨encs_inj hl.tx ht, enc_inj hl.ommers ho, .inl ?_⟩
            rw [h8, encs_inj hl.withdrawal he]
          · exact .inr (.inr (.inr (.inr ⟨ws, ws', rfl, h8, he, h9.symm⟩)))
      · exact .inr (.inr (.inr (.inl ⟨ht, h5.symm.trans hc.transactions⟩)))
    · exact .inr (.inr (.inl ⟨ho, h4.symm.trans hc.ommers⟩))
  · exact .inr (.inl ⟨hb, h, p, h2, h3, hcol⟩)

/-- Receipts accepted for a hash are those of the block with that hash. -/
theorem C58_receipts_sound (hl : env.lib.Faithful) (hv : HeadersValidated env) (k : Id) (bs : Bytes) (hd : Hd)
    (true : List Rc) (hk : env.lib.keccak (env.lib.header.enc hd) = k)
    (hc : CommitsReceipts env.lib hd true) (ha : Accepts env cache (.blockReceipts k) bs) :
    ∃ rs, Value.decode env.lib env.net (.blockReceipts k) bs = some (.receipts rs) ∧
      (rs = true ∨
        (∃ hb h p, env.headerContent k = some hb ∧
          Value.decode env.lib env.net (.headerByHash k) hb = some (.header h p) ∧
          HashCollision env.lib (env.lib.header.enc h) (env.lib.header.enc hd)) ∨
        RootCollision env.lib (rs.map env.lib.receipt.enc) (true.map env.lib.receipt.enc)) := by
  obtain ⟨rs, hb, h, p, h1, h2, h3, h4⟩ := (C58_receipts env cache k bs).mp ha
  refine ⟨rs, h1, ?_⟩
  rcases answered_header env hl hv h2 h3 hk with rfl | hcol
  · by_cases he : rs.map env.lib.receipt.enc = true.map env.lib.receipt.enc
    · exact .inl (encs_inj hl.receipt he)
    · exact .inr (.inr ⟨he, h4.symm.trans hc⟩)
  · exact .inr (.inl ⟨hb, h, p, h2, h3, hcol⟩)

/-- The history network answers the header of the block with some proof. -/
def AnswersHeader (hd : Hd) : Prop := ∃ hb p,
  env.headerContent (env.lib.keccak (env.lib.header.enc hd)) = some hb ∧
  Value.decode env.lib env.net (.headerByHash (env.lib.keccak (env.lib.header.enc hd))) hb = some (.header hd p)

/-- The header of a block whose proof is accepted is accepted under its hash and under its number. -/
theorem C58_honest_header (hl : env.lib.Faithful) (hd : Hd) (p : HeaderProof)
    (hlen : (env.lib.header.enc hd).length ≤ 2048) (hk : p.kind = decodedKind env.net (env.lib.hdr hd))
    (hv : (HeaderValidator.validate env.H env.net env.trusted cache env.source (env.lib.hdr hd) p).1 = .accept) :
    ∃ bs, (Value.header hd p : Value Hd Tx Rc Wd).encode env.lib = some bs ∧
      Accepts env cache (.headerByHash (env.lib.keccak (env.lib.header.enc hd))) bs ∧
      Accepts env cache (.headerByNumber (env.lib.view hd).number) bs := by
  have hb : (encodeHeaderWithProof env.lib hd p).length < 2 ^ 32 := by
    rw [encodeHeaderWithProof, container2_length, encodeHeader_eq hlen]
    have := proof_length p
    omega
  refine ⟨_, rfl, ?_, ?_⟩
  · exact (C58_by_hash ..).mpr ⟨hd, p, C57_round_trip hl (.byHash _ _ _ hlen hk) rfl hb, rfl, hv⟩
  · exact (C58_by_number ..).mpr ⟨hd, p, C57_round_trip hl (.byNumber _ _ _ hlen hk) rfl hb, rfl, hv⟩

/-- The body of a block is accepted under its hash, when the history network knows the header. -/
theorem C58_honest_body (hl : env.lib.Faithful) (hd : Hd) (b : Body Hd Tx Wd) (hc : CommitsBody env.lib hd b)
    (ho : b.withdrawals ≠ none → b.ommers = []) (hans : AnswersHeader env hd) {bs : Bytes}
    (he : (Value.body b : Value Hd Tx Rc Wd).encode env.lib = some bs) (hlen : bs.length < 2 ^ 32) :
    Accepts env cache (.blockBody (env.lib.keccak (env.lib.header.enc hd))) bs := by
  obtain ⟨hb, p, h1, h2⟩ := hans
  refine (C58_body ..).mpr ⟨b, hb, hd, p, C57_round_trip hl (.body _ _ ho) he hlen, h1, h2, hc.ommers,
    hc.transactions, ?_⟩
  intro ws hw
  rw [hc.withdrawals, hw]
  rfl

/-- The receipts of a block, at most 16384, are accepted under its hash, when the history network knows the
header. -/
theorem C58_honest_receipts (hl : env.lib.Faithful) (hd : Hd) (rs : List Rc)
    (hc : CommitsReceipts env.lib hd rs) (hn : rs.length ≤ 16384) (hans : AnswersHeader env hd) {bs : Bytes}
    (he : (Value.receipts rs : Value Hd Tx Rc Wd).encode env.lib = some bs) (hlen : bs.length < 2 ^ 32) :
    Accepts env cache (.blockReceipts (env.lib.keccak (env.lib.header.enc hd))) bs := by
  obtain ⟨hb, p, h1, h2⟩ := hans
  exact (C58_receipts ..).mpr ⟨rs, hb, hd, p, C57_round_trip hl (.receipts _ _ hn) he hlen, h1, h2, hc⟩

/-- Bodies are **not** bound to the withdrawals of their block: for every block with withdrawals, the body
with the withdrawals left out is accepted as well. -/
theorem C58_withdrawals_violated (hl : env.lib.Faithful) (hd : Hd) (txs : List Tx) (ws : List Wd)
    (hc : CommitsBody env.lib hd ⟨txs, [], some ws⟩) (hans : AnswersHeader env hd) {bs : Bytes}
    (he : (Value.body ⟨txs, [], none⟩ : Value Hd Tx Rc Wd).encode env.lib = some bs)
    (hlen : bs.length < 2 ^ 32) :
    Accepts env cache (.blockBody (env.lib.keccak (env.lib.header.enc hd))) bs ∧
      Value.decode env.lib env.net (.blockBody (env.lib.keccak (env.lib.header.enc hd))) bs =
        some (.body ⟨txs, [], none⟩) := by
  obtain ⟨hb, p, h1, h2⟩ := hans
  have hd' := C57_round_trip (net := env.net) hl
    (.body (env.lib.keccak (env.lib.header.enc hd)) ⟨txs, [], none⟩ fun _ => rfl) he hlen
  exact ⟨(C58_body ..).mpr ⟨_, hb, hd, p, hd', h1, h2, hc.ommers, hc.transactions, fun ws hw => by cases hw⟩, hd'⟩

/-- Content is **not** unique for its key: any bytes that decode to the value of accepted content of a body or
of receipts (C57: there are many) are accepted too. -/
theorem C58_malleable_violated (k : Id) (bs bs' : Bytes) :
    (Value.decode env.lib env.net (.blockBody k) bs' = Value.decode env.lib env.net (.blockBody k) bs →
      Accepts env cache (.blockBody k) bs → Accepts env cache (.blockBody k) bs') ∧
    (Value.decode env.lib env.net (.blockReceipts k) bs' = Value.decode env.lib env.net (.blockReceipts k) bs →
      Accepts env cache (.blockReceipts k) bs → Accepts env cache (.blockReceipts k) bs') := by
  constructor
  · intro he ha
    rw [C58_body] at ha ⊢
    rwa [he]
  · intro he ha
    rw [C58_receipts] at ha ⊢
    rwa [he]

/-! ## Other keys, panics, the cache -/

/-- Nothing is valid for an ephemeral header key. -/
theorem C58_ephemeral (key : Legacy) (bs : Bytes)
    (h : (∃ k n, key = .ephemeralFind k n) ∨ ∃ k, key = .ephemeralOffer k) :
    validateContent env cache key bs = (.reject, cache) := by
  rcases h with ⟨k, n, rfl⟩ | ⟨k, rfl⟩ <;> rfl

/-- Validation **can** abort: for every header of the time between the merge and Shanghai that fits, there is
content that makes the validation under its hash and under its number panic. -/
theorem C58_total_violated (hl : env.lib.Faithful) (hd : Hd) (hlen : (env.lib.header.enc hd).length ≤ 2048)
    (hn : env.net.parisBlock ≤ (env.lib.view hd).number)
    (ht : (env.lib.view hd).timestamp < env.net.shanghaiTime) (ht' : (env.lib.view hd).timestamp < env.net.cancunTime)
    (hroots : 8192 * env.trusted.historicalRoots.length < 2 ^ 64) :
    ∃ bs, (validateContent env cache (.headerByHash (env.lib.keccak (env.lib.header.enc hd))) bs).1 = .abort ∧
      (validateContent env cache (.headerByNumber (env.lib.view hd).number) bs).1 = .abort := by
  obtain ⟨p, _, _, hp⟩ := C33_violated env.H env.net env.trusted cache env.source (env.lib.hdr hd) hn ht
    (Vector.replicate 11 0) (Vector.replicate 14 0) (UInt64.ofNat (8192 * env.trusted.historicalRoots.length))
    (by rw [UInt64.toNat_ofNat', Nat.mod_eq_of_lt hroots]; exact Nat.le_refl _)
  have hk : (HeaderProof.roots p).kind = decodedKind env.net (env.lib.hdr hd) := by
    have e1 : ¬ env.net.cancunTime ≤ (env.lib.view hd).timestamp := UInt64.not_le.mpr ht'
    have e2 : ¬ env.net.shanghaiTime ≤ (env.lib.view hd).timestamp := UInt64.not_le.mpr ht
    simp [HeaderValidator.HeaderProof.kind, decodedKind, HeaderValidator.Net.cancun, HeaderValidator.Net.shanghai,
      HeaderValidator.Net.paris, Lib.hdr, e1, e2, hn]
  have hdec := hwp_encode hl hlen hk
  refine ⟨encodeHeaderWithProof env.lib hd (.roots p), ?_, ?_⟩
  · simp only [validateContent, hdec, ne_eq, not_true_eq_false, if_false]
    exact hp
  · simp only [validateContent, hdec, ne_eq, not_true_eq_false, if_false]
    exact hp

/-- It aborts in no other way than the validation of header proofs does (C33): never for bodies, receipts and
ephemeral headers, and for headers only if the trusted accumulators end before the block or the slot. -/
theorem C58_no_abort_partial (hcover : env.net.parisBlock.toNat ≤ 8192 * env.trusted.epochs.length) (key : Legacy)
    (bs : Bytes)
    (hslot : ∀ k h q, Value.decode env.lib env.net (.headerByHash k) bs = some (.header h (.roots q)) →
      q.slot.toNat < 8192 * env.trusted.historicalRoots.length) :
    (validateContent env cache key bs).1 ≠ .abort := by
  cases key with
  | headerByHash k =>
    simp only [validateContent]
    split
    · simp
    · next h p hd =>
      split
      · simp
      · refine C33_no_abort_partial _ _ _ _ _ _ _ hcover ?_
        rintro q rfl
        exact hslot k h q (by simp [Value.decode, hd])
  | headerByNumber k =>
    simp only [validateContent]
    split
    · simp
    · next h p hd =>
      split
      · simp
      · refine C33_no_abort_partial _ _ _ _ _ _ _ hcover ?_
        rintro q rfl
        exact hslot 0 h q (by simp [Value.decode, hd])
  | blockBody k =>
    simp only [validateContent]
    split
    · simp
    · split
      · simp
      · exact verdict_abort _
  | blockReceipts k =>
    simp only [validateContent]
    split
    · simp
    · split
      · simp
      · exact verdict_abort _
  | ephemeralFind _ _ => simp [validateContent]
  | ephemeralOffer _ => simp [validateContent]

/-- Whatever is validated, if the source of summaries only ever answered beginnings of the true list, the
cache of the validator is a beginning of the true list too, as C32 requires. -/
theorem C58_cache (lib : Lib Hd Tx Rc Wd) (H : Id → Id → Id) (net : Net) (t : Trusted) (summaries : List Summary)
    (past : List ((Nat → Option (List Summary)) × (Id → Option Bytes) × Legacy × Bytes))
    (hs : ∀ q ∈ past, ∀ e l, q.1 e = some l → l <+: summaries) : run lib H net t past <+: summaries := by
  induction past with
  | nil => exact List.nil_prefix
  | cons q past ih =>
    obtain ⟨source, headers, key, bs⟩ := q
    simp only [run]
    rcases content_cache ⟨lib, H, net, t, source, headers⟩ (run lib H net t past) key bs with h | ⟨e, h⟩
    · rw [h]
      exact ih fun q hq => hs q (by simp [hq])
    · exact hs (source, headers, key, bs) (by simp) e _ h

end Verif.Props

/-! ## A concrete case -/

namespace Verif.HistoryExample
open Verif Verif.Ssz Verif.ContentKey Verif.HistoryValue Verif.HistoryValidator Verif.Props
open Verif.HeaderValidator (HeaderProof Net Summary Trusted Record)

def treeHash (a b : Id) : Id := a + 2 * b
def record : Record := ⟨lib.keccak (lib.header.enc 5), 9⟩
def records : List Record := List.replicate 6 record
def trusted : Trusted := ⟨[epochRoot treeHash records], []⟩

/-- The header 5, of before the merge, has a proof that is accepted. -/
theorem header_proof : ∃ q, (HeaderValidator.validate treeHash net trusted [] (fun _ => none) (lib.hdr 5) (.hashes q)).1 =
    .accept := by
  obtain ⟨q, _, hq⟩ := C34_built_proof_accepted treeHash net trusted [] (fun _ => none) (lib.hdr 5) records record
    (by decide) (by rfl) (by rfl) (by decide) (by rfl)
  exact ⟨q, hq⟩

/-- So there is a network whose answers are validated and that knows this header; what the theorems above ask
for holds in it. -/
theorem example_network : ∃ env : Env UInt8 UInt8 UInt8 UInt8, env.lib = lib ∧ env.net = net ∧ env.trusted = trusted ∧
    HeadersValidated env ∧ AnswersHeader env 5 ∧ Accepts env [] (.headerByNumber 5) ((env.headerContent 1).getD []) := by
  obtain ⟨q, hq⟩ := header_proof
  obtain ⟨bs, h1, h2, h3⟩ := C58_honest_header ⟨lib, treeHash, net, trusted, fun _ => none, fun _ => none⟩ []
    lib_faithful 5 (.hashes q) (by decide) (by rfl) hq
  have h1' : Value.decode lib net (.headerByHash 1) bs = some (.header 5 (.hashes q)) := by
    obtain ⟨h, p, h4, _⟩ := (C58_by_hash _ _ _ _).mp h2
    obtain rfl := Option.some.inj h1
    exact C57_round_trip lib_faithful (.byHash _ _ _ (by decide) (by rfl)) rfl (by
      rw [encodeHeaderWithProof, container2_length]
      have := proof_length (.hashes q)
      simp only [encodeHeader, lib, byte, List.take, List.length_cons, List.length_nil]
      omega)
  refine ⟨⟨lib, treeHash, net, trusted, fun _ => none, fun k => if k = 1 then some bs else none⟩, rfl, rfl, rfl, ?_, ?_, ?_⟩
  · intro k b hb
    simp only at hb
    split at hb
    · next hk =>
      subst hk
      obtain rfl := Option.some.inj hb
      exact ⟨fun _ => none, fun _ => none, [], h2⟩
    · cases hb
  · exact ⟨bs, .hashes q, rfl, h1'⟩
  · exact (C58_by_number ..).mpr ((C58_by_number ..).mp h3)

/-- Its body of two transactions and its receipts. -/
example : CommitsBody lib 5 ⟨[2, 3], [], none⟩ := ⟨by rfl, by rfl, by rfl⟩
example : CommitsReceipts lib 5 [4, 1] := by rfl
/-- A block with withdrawals, as in `C58_withdrawals_violated`. -/
example : CommitsBody lib 25 ⟨[20, 5], [], some [7, 18]⟩ := ⟨by rfl, by rfl, by rfl⟩
/-- A network that knows it. -/
example : ∃ env : Env UInt8 UInt8 UInt8 UInt8, env.lib = lib ∧ AnswersHeader env 25 := by
  refine ⟨⟨lib, treeHash, net, trusted, fun _ => none, fun _ => some (encodeHeaderWithProof lib 25
    (.capella ⟨Vector.replicate 13 0, 0, Vector.replicate 11 0, 0⟩))⟩, rfl, _,
    .capella ⟨Vector.replicate 13 0, 0, Vector.replicate 11 0, 0⟩, rfl, ?_⟩
  have := hwp_encode (p := .capella ⟨Vector.replicate 13 0, 0, Vector.replicate 11 0, 0⟩) lib_faithful (net := net)
    (h := (25 : UInt8)) (by decide) (by decide)
  simp only [Value.decode, this, Option.map_some]
/-- A header for which validation can be made to panic. -/
example : net.parisBlock ≤ (lib.view 12).number ∧ (lib.view 12).timestamp < net.shanghaiTime := by decide

end Verif.HistoryExample
