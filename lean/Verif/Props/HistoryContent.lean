import Verif.Lemmas.HistoryContent
import Verif.Lemmas.HistoryValidator
import Verif.Lemmas.ExceptEq
import Verif.Lemmas.Bytes
import Verif.Props.HistoryValue

/-! # C102: the content of the History network -/

namespace Verif.Props
open Verif.HistoryContent Verif.ContentKey
open Verif.HistoryValue (Body)
open Verif.HistoryValidator (HashCollision RootCollision enc_inj encs_inj CommitsBody)

variable {Ty St Log Hd Tx Rc Wd : Type} (env : HistoryContent.Env Ty St Log Hd Tx Rc Wd)

/-- Receipts are read from exactly the RLP lists of receipts of EIP-7642, with nothing after them. -/
theorem C102_receipts (hf : env.Faithful) (n : UInt64) (bs : Bytes) (v : HistoryContent.Value Ty St Log Hd Tx Wd) :
    HistoryContent.Value.decode env (.blockReceipts n) bs = some v ↔
      ∃ rs, v = .receipts rs ∧ IsListOf (IsReceipt env) rs bs := by
  simp only [HistoryContent.Value.decode, Option.map_eq_some_iff, exact_iff, receipts_iff env hf]
  constructor
  · rintro ⟨rs, ⟨p, h1, h2⟩, rfl⟩
    rw [List.append_nil] at h2
    exact ⟨rs, rfl, h2 ▸ h1⟩
  · rintro ⟨rs, rfl, h⟩
    exact ⟨rs, ⟨bs, h, (List.append_nil _).symm⟩, rfl⟩

/-- A body is read from exactly the bytes the library reads as it, with nothing after them. -/
theorem C102_body (hf : env.Faithful) (n : UInt64) (bs : Bytes) (v : HistoryContent.Value Ty St Log Hd Tx Wd) :
    HistoryContent.Value.decode env (.blockBody n) bs = some v ↔ ∃ b, v = .body b ∧ env.body.Reads b bs := by
  simp only [HistoryContent.Value.decode, Option.map_eq_some_iff, exact_iff, hf.body.iff]
  constructor
  · rintro ⟨b, ⟨p, h1, h2⟩, rfl⟩
    rw [List.append_nil] at h2
    exact ⟨b, rfl, h2 ▸ h1⟩
  · rintro ⟨b, rfl, h⟩
    exact ⟨b, ⟨bs, h, (List.append_nil _).symm⟩, rfl⟩

/-- What is encoded is read back under every key of its kind. -/
theorem C102_round_trip (hf : env.Faithful) (key : History) (v : HistoryContent.Value Ty St Log Hd Tx Wd)
    (hb : HistoryContent.Belongs key v) (hl : (HistoryContent.Value.encode env v).length < 256 ^ 8) :
    HistoryContent.Value.decode env key (HistoryContent.Value.encode env v) = some v := by
  cases hb with
  | body n b => exact (C102_body env hf n _ _).mpr ⟨b, rfl, hf.body.reads b⟩
  | receipts n rs => exact (C102_receipts env hf n _ _).mpr ⟨rs, rfl, receipts_enc env hf hl⟩

/-- Only values of the kind of the key are read. -/
theorem C102_kind (key : History) (bs : Bytes) (v : HistoryContent.Value Ty St Log Hd Tx Wd)
    (h : HistoryContent.Value.decode env key bs = some v) : HistoryContent.Belongs key v := by
  cases key with
  | blockBody n =>
    obtain ⟨b, _, rfl⟩ := Option.map_eq_some_iff.mp h
    exact .body n b
  | blockReceipts n =>
    obtain ⟨b, _, rfl⟩ := Option.map_eq_some_iff.mp h
    exact .receipts n b

/-- Content with something after it is refused, and so is content that is cut short. -/
theorem C102_exact (hf : env.Faithful) (key : History) (bs more : Bytes) (v : HistoryContent.Value Ty St Log Hd Tx Wd)
    (h : HistoryContent.Value.decode env key bs = some v) (hm : more ≠ []) :
    HistoryContent.Value.decode env key (bs ++ more) = none := by
  cases key with
  | blockBody n =>
    obtain ⟨b, rfl, h1⟩ := (C102_body env hf n _ _).mp h
    rw [Option.eq_none_iff_forall_not_mem]
    intro w hw
    obtain ⟨b', rfl, h2⟩ := (C102_body env hf n _ _).mp hw
    have h3 := h2 []
    rw [List.append_nil, h1 more] at h3
    cases h3
    exact hm rfl
  | blockReceipts n =>
    obtain ⟨rs, rfl, h1⟩ := (C102_receipts env hf n _ _).mp h
    rw [Option.eq_none_iff_forall_not_mem]
    intro w hw
    obtain ⟨rs', rfl, h2⟩ := (C102_receipts env hf n _ _).mp hw
    have h3 := (receipts_iff env hf (bs ++ more) rs' []).mpr ⟨_, h2, (List.append_nil _).symm⟩
    rw [(receipts_iff env hf (bs ++ more) rs more).mpr ⟨_, h1, rfl⟩] at h3
    cases h3
    exact hm rfl

/-- The length that `length` announces for a receipt, from which the headers of the lists are made, is that of what is
written. -/
theorem C102_length (hf : env.Faithful) (r : HistoryContent.Receipt Ty St Log) : r.length env = (r.encode env).length :=
  receipt_len env hf r

/-- Different values have different encodings. -/
theorem C102_injective (hf : env.Faithful) (key : History) (v w : HistoryContent.Value Ty St Log Hd Tx Wd)
    (hv : HistoryContent.Belongs key v) (hw : HistoryContent.Belongs key w)
    (hl : (HistoryContent.Value.encode env v).length < 256 ^ 8)
    (h : HistoryContent.Value.encode env v = HistoryContent.Value.encode env w) : v = w := by
  have h1 := C102_round_trip env hf key v hv hl
  rw [h, C102_round_trip env hf key w hw (h ▸ hl)] at h1
  exact (Option.some.inj h1).symm

/-- What the header commits to is valid. -/
theorem C102_honest (h : Hd) (v : HistoryContent.Value Ty St Log Hd Tx Wd) (hc : Commits env h v) :
    HistoryContent.Value.validate env v h = true := by
  cases v with
  | body b =>
    simp only [HistoryContent.Value.validate, HistoryValidator.validateBody]
    rw [if_neg (by rw [hc.ommers]; simp), if_neg (by rw [hc.transactions]; simp)]
    have h3 := hc.withdrawals
    split
    · rfl
    · next ws hw =>
      rw [hw] at h3
      rw [h3]
      simp
  | receipts rs =>
    simp only [HistoryContent.Value.validate, decide_eq_true_eq]
    exact hc.symm

/-- Receipts are valid exactly when the header commits to them. -/
theorem C102_valid_receipts (h : Hd) (rs : List (HistoryContent.Receipt Ty St Log)) :
    HistoryContent.Value.validate env (.receipts rs : HistoryContent.Value Ty St Log Hd Tx Wd) h = true ↔
      Commits env h (.receipts rs : HistoryContent.Value Ty St Log Hd Tx Wd) := by
  simp only [HistoryContent.Value.validate, decide_eq_true_eq]
  exact eq_comm

/-- Receipts that are read and valid are those of the block, unless two different lists of receipts have the same root. -/
theorem C102_receipts_sound (hf : env.Faithful) (h : Hd) (n : UInt64) (bs : Bytes)
    (v : HistoryContent.Value Ty St Log Hd Tx Wd) (true : List (HistoryContent.Receipt Ty St Log))
    (hc : Commits env h (.receipts true : HistoryContent.Value Ty St Log Hd Tx Wd))
    (hd : HistoryContent.Value.decode env (.blockReceipts n) bs = some v)
    (hv : HistoryContent.Value.validate env v h = Bool.true) :
    ∃ rs, v = .receipts rs ∧ (rs = true ∨ RootCollision env.lib ((rs.map env.envelope).map env.lib.receipt.enc)
      ((true.map env.envelope).map env.lib.receipt.enc)) := by
  obtain ⟨rs, rfl, _⟩ := (C102_receipts env hf n _ _).mp hd
  refine ⟨rs, rfl, ?_⟩
  have h1 := (C102_valid_receipts env h rs).mp hv
  by_cases he : (rs.map env.envelope).map env.lib.receipt.enc = (true.map env.envelope).map env.lib.receipt.enc
  · refine .inl ?_
    have h2 := encs_inj hf.lib.receipt he
    exact List.map_inj_right (fun r r' hr => hf.envelope r r' hr) |>.mp h2
  · exact .inr ⟨he, h1.symm.trans hc⟩

/-- A body that is read and valid has the transactions and the uncles of the block, and its withdrawals or none at all,
unless there is a collision between them. Missing: that the withdrawals are there when the block has them. -/
theorem C102_body_sound_partial (hf : env.Faithful) (h : Hd) (n : UInt64) (bs : Bytes)
    (v : HistoryContent.Value Ty St Log Hd Tx Wd) (true : Body Hd Tx Wd)
    (hc : Commits env h (.body true : HistoryContent.Value Ty St Log Hd Tx Wd))
    (hd : HistoryContent.Value.decode env (.blockBody n) bs = some v)
    (hv : HistoryContent.Value.validate env v h = Bool.true) :
    ∃ b, v = .body b ∧
      ((b.transactions = true.transactions ∧ b.ommers = true.ommers ∧
          (b.withdrawals = true.withdrawals ∨ b.withdrawals = none)) ∨
        HashCollision env.lib (env.lib.ommers.enc b.ommers) (env.lib.ommers.enc true.ommers) ∨
        RootCollision env.lib (b.transactions.map env.lib.tx.enc) (true.transactions.map env.lib.tx.enc) ∨
        ∃ ws ws', b.withdrawals = some ws ∧ true.withdrawals = some ws' ∧
          RootCollision env.lib (ws.map env.lib.withdrawal.enc) (ws'.map env.lib.withdrawal.enc)) := by
  obtain ⟨b, rfl, _⟩ := (C102_body env hf n _ _).mp hd
  refine ⟨b, rfl, ?_⟩
  have hc : CommitsBody env.lib h true := hc
  simp only [HistoryContent.Value.validate, HistoryValidator.validateBody] at hv
  split at hv
  · cases hv
  next h1 =>
  split at hv
  · cases hv
  next h2 =>
  have h1 := Classical.not_not.mp h1
  have h2 := Classical.not_not.mp h2
  by_cases ho : env.lib.ommers.enc b.ommers = env.lib.ommers.enc true.ommers
  · by_cases ht : b.transactions.map env.lib.tx.enc = true.transactions.map env.lib.tx.enc
    · have ho := enc_inj hf.lib.ommers ho
      have ht := encs_inj hf.lib.tx ht
      cases hw : b.withdrawals with
      | none => exact .inl ⟨ht, ho, .inr rfl⟩
      | some ws =>
        rw [hw] at hv
        simp only at hv
        have h3 := hc.withdrawals
        split at hv
        · cases hv
        · next root hr =>
          rw [hr] at h3
          obtain ⟨ws', h4, h5⟩ := Option.map_eq_some_iff.mp h3.symm
          by_cases he : ws.map env.lib.withdrawal.enc = ws'.map env.lib.withdrawal.enc
          · have := encs_inj hf.lib.withdrawal he
            subst this
            exact .inl ⟨ht, ho, .inl h4.symm⟩
          · exact .inr (.inr (.inr ⟨ws, ws', rfl, h4, he, (of_decide_eq_true hv).trans h5.symm⟩))
    · exact .inr (.inr (.inl ⟨ht, h2.trans hc.transactions⟩))
  · exact .inr (.inl ⟨ho, h1.trans hc.ommers⟩)

/-- The body of a block without its withdrawals is valid too: whoever offers it has it stored in place of the body. -/
theorem C102_withdrawals_violated (h : Hd) (b : Body Hd Tx Wd) (hc : Commits env h (.body b : HistoryContent.Value Ty St Log Hd Tx Wd)) :
    HistoryContent.Value.validate env (.body { b with withdrawals := none } : HistoryContent.Value Ty St Log Hd Tx Wd) h = true := by
  have hc : CommitsBody env.lib h b := hc
  simp only [HistoryContent.Value.validate, HistoryValidator.validateBody]
  rw [if_neg (by rw [hc.ommers]; simp), if_neg (by rw [hc.transactions]; simp)]

end Verif.Props

namespace Verif.HistoryContentExample
open Verif.HistoryContent Verif.Rlp Verif.Props
open Verif.ContentKey (History)
open Verif.HistoryValue (Body Lib)
open Verif.HistoryExample (encList byte byte_faithful list_faithful)

/-- A byte. -/
def one : Codec UInt8 where
  enc x := [x]
  len _ := 1
  dec
    | [] => .error .inputTooShort
    | x :: rest => .ok (x, rest)

theorem one_faithful : one.Faithful where
  length _ := rfl
  reads _ _ := rfl
  front bs x rest h := by
    cases bs with
    | nil => cases h
    | cons y bs => cases h; exact ⟨[x], by simp, rfl, fun _ => rfl⟩

/-- Each item after a 1, then a 0. -/
def readList : Bytes → Except Err (List UInt8 × Bytes)
  | 0 :: rest => .ok ([], rest)
  | 1 :: x :: bs =>
    match readList bs with
    | .error e => .error e
    | .ok (xs, rest) => .ok (x :: xs, rest)
  | _ => .error .inputTooShort

theorem readList_enc (l : List UInt8) (rest : Bytes) : readList (encList l ++ rest) = .ok (l, rest) := by
  induction l with
  | nil => rfl
  | cons x l ih => simp [encList, readList, ih]

theorem readList_front (bs : Bytes) : ∀ l rest, readList bs = .ok (l, rest) → bs = encList l ++ rest := by
  fun_induction readList bs with
  | case1 rest => intro l r h; cases h; rfl
  | case2 x bs e he ih => intro l r h; cases h
  | case3 x bs xs rest he ih => intro l r h; cases h; simp [encList, ih _ _ he]
  | case4 => intro l r h; cases h

/-- A body: its transactions, its uncles, and whether there are withdrawals. -/
def bodies : Codec (Body UInt8 UInt8 UInt8) where
  enc b := encList b.transactions ++ (encList b.ommers ++ match b.withdrawals with | none => [0] | some ws => 1 :: encList ws)
  len b := (encList b.transactions ++ (encList b.ommers ++ match b.withdrawals with | none => [0] | some ws => 1 :: encList ws)).length
  dec bs := do
    let (txs, bs) ← readList bs
    let (ommers, bs) ← readList bs
    match bs with
    | 0 :: rest => return ({ transactions := txs, ommers := ommers, withdrawals := none }, rest)
    | 1 :: bs =>
      let (ws, rest) ← readList bs
      return ({ transactions := txs, ommers := ommers, withdrawals := some ws }, rest)
    | _ => throw .custom

theorem bodies_reads (b : Body UInt8 UInt8 UInt8) : bodies.Reads b (bodies.enc b) := by
  intro more
  obtain ⟨txs, ommers, ws⟩ := b
  cases ws <;> simp [bodies, List.append_assoc, readList_enc, bind, Except.bind, pure, Except.pure]

theorem enc_ne (l : List UInt8) : encList l ≠ [] := by cases l <;> simp [encList]

theorem bodies_faithful : bodies.Faithful where
  length _ := rfl
  reads := bodies_reads
  front bs x rest h := by
    suffices hs : bs = bodies.enc x ++ rest by
      refine ⟨bodies.enc x, ?_, hs, bodies_reads x⟩
      simp only [bodies]
      exact fun hn => enc_ne _ (List.append_eq_nil_iff.mp hn).1
    simp only [bodies, bind, Except.bind, pure, Except.pure] at h
    split at h
    · cases h
    · next a ha =>
      split at h
      · cases h
      · next b hb =>
        rw [readList_front _ _ _ ha, readList_front _ _ _ hb]
        split at h
        · next r hr => cases h; simp [bodies, hr]
        · next r hr =>
          split at h
          · cases h
          · next w hw =>
            cases h
            rw [hr, readList_front _ _ _ hw]
            simp [bodies]
        · cases h

def envelope (r : Receipt UInt8 UInt8 UInt8) : List UInt8 := r.txType :: r.status :: (toLe 8 r.gasUsed.toNat ++ r.logs)

/-- Two receipts: one of more than 55 bytes. -/
def sent : List (Receipt UInt8 UInt8 UInt8) := [⟨2, 1, 21000, []⟩, ⟨0, 1, 400000, List.replicate 60 7⟩]

def trieRoot (l : List Bytes) : Id := BitVec.ofNat 256 (l.map fromLe).sum

/-- Headers are bytes; they commit to the receipts above, to transactions of the sum of the header, and to withdrawals. -/
def env : Env UInt8 UInt8 UInt8 UInt8 UInt8 (List UInt8) UInt8 where
  lib := {
    header := byte
    ommers := ⟨encList, HistoryExample.decList⟩
    tx := byte
    receipt := ⟨encList, HistoryExample.decList⟩
    withdrawal := byte
    view x := ⟨x.toNat.toUInt64, x.toNat.toUInt64, BitVec.ofNat 256 1, BitVec.ofNat 256 x.toNat,
      trieRoot ((sent.map envelope).map encList), some (BitVec.ofNat 256 x.toNat)⟩
    keccak b := BitVec.ofNat 256 b.length
    trieRoot := trieRoot }
  txType := one
  status := one
  log := one
  body := bodies
  envelope := envelope

theorem env_faithful : env.Faithful where
  lib := ⟨byte_faithful, list_faithful, byte_faithful, list_faithful, byte_faithful⟩
  txType := one_faithful
  status := one_faithful
  log := one_faithful
  body := bodies_faithful
  envelope r r' h := by
    obtain ⟨a, b, c, d⟩ := r
    obtain ⟨a', b', c', d'⟩ := r'
    simp only [env, envelope, List.cons.injEq] at h
    obtain ⟨rfl, rfl, h⟩ := h
    obtain ⟨h1, rfl⟩ := List.append_inj h (by simp)
    have := toLe_inj (n := 8) (by have := c.toNat_lt; omega) (by have := c'.toNat_lt; omega) h1
    rw [UInt64.toNat_inj.mp this]

abbrev Val := Value UInt8 UInt8 UInt8 UInt8 UInt8 UInt8

/-- The receipts, as they travel. -/
example : Value.encode env (.receipts sent : Val) =
    [0xf8, 0x4d] ++ ([0xc6, 2, 1, 0x82, 0x52, 0x08, 0xc0] ++ ([0xf8, 0x44, 0, 1, 0x83, 0x06, 0x1a, 0x80] ++
      ([0xf8, 0x3c] ++ List.replicate 60 7))) := by decide +kernel

example : Commits env 40 (.receipts sent : Val) := rfl
example : Value.validate env (.receipts sent : Val) 40 = true := C102_honest env 40 _ rfl
example : Value.decode env (.blockReceipts 5) (Value.encode env (.receipts sent : Val)) = some (.receipts sent) :=
  C102_round_trip env env_faithful _ _ (.receipts 5 sent) (by decide +kernel)

/-- Receipts with another gas are not valid, a field too many or too few is refused, and so is something that follows. -/
example : Value.validate env (.receipts [⟨2, 1, 21001, []⟩] : Val) 40 = false := by decide +kernel
example : Receipt.decode env [0xc7, 2, 1, 0x82, 0x52, 0x08, 0xc0, 0xc0] = .error .unexpectedLength ∧
    Receipt.decode env [0xc5, 2, 1, 0x82, 0x52, 0x08, 0xc0] = .error .unexpectedLength ∧
    Receipt.decode env [0x86, 2, 1, 0x82, 0x52, 0x08, 0xc0] = .error .unexpectedString := by
  refine ⟨?_, ?_, ?_⟩ <;> decide +kernel
example : decodeExact (receipts env) [0xc7, 0xc6, 2, 1, 0x82, 0x52, 0x08, 0xc0, 0] = .error .unexpectedLength := by decide +kernel

/-- A block with two transactions, an uncle list of one byte and withdrawals: with them and without them its body is valid. -/
def block : Body UInt8 UInt8 UInt8 := { transactions := [30, 10], ommers := [], withdrawals := some [39, 1] }
theorem block_commits : Commits env 40 (.body block : Val) := by
  refine ⟨?_, ?_, ?_⟩ <;> decide +kernel
example : Value.decode env (.blockBody 5) (Value.encode env (.body block : Val)) = some (.body block) :=
  C102_round_trip env env_faithful _ _ (.body 5 block) (by decide +kernel)
example : Value.validate env (.body { block with withdrawals := none } : Val) 40 = true :=
  C102_withdrawals_violated env 40 block block_commits

end Verif.HistoryContentExample
