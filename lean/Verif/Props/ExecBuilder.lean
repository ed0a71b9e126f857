import Verif.Props.ExecBuilderSpec

/-! # C70: execution headers and bodies are rebuilt exactly from beacon blocks -/

namespace Verif.Props
open Verif Verif.ExecBuilder
open Verif.HistoryValue (Body decodeItems)
open Verif.HistoryValidator (validateBody)
open Verif.HeaderValidator (Fork)

variable {Tx Rc Wd Bt P : Type}

theorem decodeItems_eq {α : Type} (w : HistoryValue.Wire α) (bs : List Bytes) (xs : List α)
    (h : decodeItems w bs = some xs) : bs.map w.dec = xs.map some := by
  induction bs generalizing xs with
  | nil => cases h; rfl
  | cons b bs ih =>
    unfold decodeItems at h
    split at h
    · cases h
    · next x hx =>
      cases hr : decodeItems w bs with
      | none => rw [hr] at h; cases h
      | some ys =>
        rw [hr] at h
        cases h
        rw [List.map_cons, List.map_cons, hx, ih ys hr]

theorem decodeItems_none {α : Type} (w : HistoryValue.Wire α) (bs : List Bytes) :
    decodeItems w bs = none ↔ ∃ b ∈ bs, w.dec b = none := by
  induction bs with
  | nil => simp [decodeItems]
  | cons b bs ih =>
    unfold decodeItems
    split
    · next h => simp [h]
    · next x h => simp [h, ih]

theorem decodeItems_of {α : Type} (w : HistoryValue.Wire α) (bs : List Bytes) (xs : List α)
    (h : bs.map w.dec = xs.map some) : decodeItems w bs = some xs := by
  cases hd : decodeItems w bs with
  | none =>
    obtain ⟨b, h1, h2⟩ := (decodeItems_none w bs).mp hd
    have : w.dec b ∈ xs.map some := h ▸ List.mem_map_of_mem h1
    rw [h2] at this
    simp at this
  | some ys =>
    have := decodeItems_eq w bs ys hd
    rw [h] at this
    rw [(List.map_inj_right (fun _ _ => Option.some.inj)).mp this]

theorem requestsHash_eq (l : ExecLib Tx Rc Wd) (r : Requests) : requestsHash l r = eip7685 l.sha256 r := by
  simp [requestsHash, eip7685]

theorem fee_of (l : ExecLib Tx Rc Wd) (b : Beacon Wd) (h : Header) (body : Body Header Tx Wd) (hb : BlockOf l b h body) :
    b.payload.baseFee.toNat < 2 ^ 64 ∧ some (UInt64.ofNat b.payload.baseFee.toNat) = h.baseFee := by
  cases hf : h.baseFee with
  | none => have := hb.header.baseFee; rw [hf] at this; cases this
  | some f =>
    have := hb.carries.baseFee
    rw [hf] at this
    rw [Option.some.inj this, UInt64.ofNat_toNat]
    exact ⟨f.toNat_lt, rfl⟩

theorem makeHeader_of (l : ExecLib Tx Rc Wd) (b : Beacon Wd) (h : Header) (body : Body Header Tx Wd)
    (hb : BlockOf l b h body) : makeHeader l b (UInt64.ofNat b.payload.baseFee.toNat) body.transactions = h := by
  have hfee' := (fee_of l b h body hb).2
  have hpos := hb.header
  have hroots := hb.roots
  have hc := hb.carries
  have hw := hc.withdrawals
  have h1 := hc.blobGasUsed
  have h2 := hc.excessBlobGas
  have h3 := hc.parentRoot
  have h4 := hc.requests
  have h5 := hroots.withdrawals
  unfold makeHeader
  cases hf : b.fork <;> rw [hf] at hw h1 h2 h3 h4 <;> rw [hw] at h5 <;>
    simp only [Fork.hasWithdrawals, Fork.hasBlobs, Fork.hasRequests, if_true, Option.map_some, Option.map_none,
      Bool.false_eq_true, if_false] at h1 h2 h3 h4 h5 <;>
    cases h <;>
    simp only [headerBellatrix, headerCapella, headerDeneb, headerElectra, Header.mk.injEq, requestsHash_eq] <;>
    exact ⟨hc.parentHash, hpos.ommers.symm, hc.feeRecipient, hc.stateRoot, hroots.transactions.symm, hc.receiptsRoot,
      hc.logsBloom, hpos.difficulty.symm, hc.number, hc.gasLimit, hc.gasUsed, hc.timestamp, hc.extraData,
      hc.prevRandao, hpos.nonce.symm, hfee', h5.symm, h1.symm, h2.symm, h3.symm, h4.symm⟩

theorem of_makeHeader (l : ExecLib Tx Rc Wd) (b : Beacon Wd) (txs : List Tx) (hfee : b.payload.baseFee.toNat < 2 ^ 64)
    (hd : b.payload.transactions.map l.txEnvelope = txs.map some)
    (hh : b.payload.blockHash = l.hash (makeHeader l b (UInt64.ofNat b.payload.baseFee.toNat) txs)) :
    BlockOf l b (makeHeader l b (UInt64.ofNat b.payload.baseFee.toNat) txs) ⟨txs, [], bodyWithdrawals b⟩ := by
  have hfee' : (UInt64.ofNat b.payload.baseFee.toNat).toNat = b.payload.baseFee.toNat :=
    UInt64.toNat_ofNat_of_lt' (show _ < 2 ^ 64 by omega)
  have hr := requestsHash_eq l b.requests
  revert hh
  unfold makeHeader bodyWithdrawals
  cases hf : b.fork <;> intro hh <;>
    exact ⟨by rw [hf]; exact ⟨rfl, rfl, rfl, rfl, rfl, rfl, rfl, rfl, rfl⟩,
      ⟨hh, rfl, rfl, rfl, rfl, rfl, rfl, rfl, rfl, rfl, rfl, rfl, by simp [headerBellatrix, headerCapella,
        headerDeneb, headerElectra, hfee'], by rw [hf]; rfl, by rw [hf]; rfl, by rw [hf]; rfl, by rw [hf]; rfl,
        by rw [hf, ← hr]; rfl⟩, ⟨rfl, rfl, rfl⟩, rfl, hd⟩

/-- Exactly the execution block in the beacon block is built. -/
theorem C70_exact (l : ExecLib Tx Rc Wd) (proof : Beacon Wd → Bt → Option P) (b : Beacon Wd) (batch : Bt) (p : P)
    (h : Header) (body : Body Header Tx Wd) :
    build l proof b batch = .ok ((h, p), body) ↔ BlockOf l b h body ∧ proof b batch = some p := by
  constructor
  · intro hb
    unfold build at hb
    split at hb
    · cases hb
    · next txs htx =>
      unfold buildHeader at hb
      split at hb
      · cases hb
      · next hfee =>
        simp only at hb
        split at hb
        · cases hb
        · next hh =>
          simp only [E2store.Res.bind] at hb
          split at hb
          · cases hb
          · next p' hp =>
            cases hb
            exact ⟨of_makeHeader l b txs (by omega) (decodeItems_eq _ _ _ htx) (Decidable.not_not.mp hh), hp⟩
  · rintro ⟨hb, hp⟩
    have hbw : bodyWithdrawals b = body.withdrawals := by
      rw [hb.carries.withdrawals]
      unfold bodyWithdrawals
      cases b.fork <;> rfl
    have hd := decodeItems_of ⟨l.tx.enc, l.txEnvelope⟩ b.payload.transactions body.transactions hb.transactions
    have hfee := (fee_of l b h body hb).1
    unfold build
    rw [hd]
    simp only
    unfold buildHeader
    rw [if_neg (by omega)]
    simp only
    rw [makeHeader_of l b h body hb, if_neg (by rw [hb.carries.hash]; exact fun h => h rfl), hbw]
    simp only [E2store.Res.bind, hp]
    have := hb.ommers
    cases body
    simp only at this
    rw [this]

/-- The body of what is built passes validation against the header, and the header has the number and the hash that the
beacon block states. -/
theorem C70_valid (l : ExecLib Tx Rc Wd) (proof : Beacon Wd → Bt → Option P) (b : Beacon Wd) (batch : Bt) (p : P)
    (h : Header) (body : Body Header Tx Wd) (hb : build l proof b batch = .ok ((h, p), body)) :
    validateBody l.lib body h = true ∧ h.number = b.executionBlockNumber ∧
      l.keccak (l.header.enc h) = b.payload.blockHash := by
  obtain ⟨hb, _⟩ := (C70_exact l proof b batch p h body).mp hb
  refine ⟨?_, hb.carries.number.symm, hb.carries.hash.symm⟩
  have h1 := hb.roots.ommers
  have h2 := hb.roots.transactions
  have h3 := hb.roots.withdrawals
  unfold validateBody
  rw [if_neg (fun hn => hn h1.symm), if_neg (fun hn => hn h2.symm)]
  cases hw : body.withdrawals with
  | none => rfl
  | some ws =>
    rw [hw] at h3
    have h3 : (l.lib.view h).withdrawalsRoot = some (l.lib.trieRoot (ws.map l.lib.withdrawal.enc)) := h3
    simp only [h3, decide_true]

/-- Blocks that are built from beacon blocks with the same block hash have the same header, unless the encodings of the
two headers collide. -/
theorem C70_unique (l : ExecLib Tx Rc Wd) (proof : Beacon Wd → Bt → Option P) (b b' : Beacon Wd) (batch batch' : Bt)
    (p p' : P) (h h' : Header) (body body' : Body Header Tx Wd) (hb : build l proof b batch = .ok ((h, p), body))
    (hb' : build l proof b' batch' = .ok ((h', p'), body')) (he : b.payload.blockHash = b'.payload.blockHash)
    (hlib : l.header.enc h = l.header.enc h' → h = h') :
    h = h' ∨ (l.header.enc h ≠ l.header.enc h' ∧ l.keccak (l.header.enc h) = l.keccak (l.header.enc h')) := by
  have h1 := (C70_valid l proof b batch p h body hb).2.2
  have h2 := (C70_valid l proof b' batch' p' h' body' hb').2.2
  by_cases hh : h = h'
  · exact .inl hh
  · exact .inr ⟨fun he => hh (hlib he), by rw [h1, h2, he]⟩

/-- When nothing is built: a transaction does not decode, or the payload is not that of a block. Building aborts when the base
fee does not fit into 64 bits (or the proof cannot be built), also if the block hash is wrong anyway.
Missing: that a base fee that does not fit gives an error, see `C70_base_fee_violated`. -/
theorem C70_refused_partial (l : ExecLib Tx Rc Wd) (proof : Beacon Wd → Bt → Option P) (b : Beacon Wd) (batch : Bt) :
    (build l proof b batch = .err ↔
      (∃ t ∈ b.payload.transactions, l.txEnvelope t = none) ∨
      (b.payload.baseFee.toNat < 2 ^ 64 ∧ ¬∃ h body, BlockOf l b h body)) ∧
    (build l proof b batch = .panic ↔
      (∀ t ∈ b.payload.transactions, l.txEnvelope t ≠ none) ∧
      (2 ^ 64 ≤ b.payload.baseFee.toNat ∨ (build l proof b batch ≠ .err ∧ proof b batch = none))) := by
  cases hd : decodeItems ⟨l.tx.enc, l.txEnvelope⟩ b.payload.transactions with
  | none =>
    have e : build l proof b batch = .err := by unfold build; rw [hd]
    have := (decodeItems_none _ _).mp hd
    refine ⟨⟨fun _ => .inl this, fun _ => e⟩, ⟨fun h => ?_, fun h => ?_⟩⟩
    · rw [e] at h; cases h
    · obtain ⟨t, h1, h2⟩ := this
      exact absurd h2 (h.1 t h1)
  | some txs =>
    have hm := decodeItems_eq _ _ _ hd
    simp only at hm
    have hall : ∀ t ∈ b.payload.transactions, l.txEnvelope t ≠ none := by
      intro t ht hn
      have := (decodeItems_none ⟨l.tx.enc, l.txEnvelope⟩ b.payload.transactions).mpr ⟨t, ht, hn⟩
      rw [hd] at this
      cases this
    by_cases hfee : b.payload.baseFee.toNat ≥ 2 ^ 64
    · have e : build l proof b batch = .panic := by
        unfold build buildHeader; rw [hd]; simp only [if_pos hfee, E2store.Res.bind]
      rw [e]
      refine ⟨⟨fun h => (by cases h), ?_⟩, ⟨fun _ => ⟨hall, .inl hfee⟩, fun _ => rfl⟩⟩
      rintro (⟨t, h1, h2⟩ | ⟨h2, _⟩)
      · exact absurd h2 (hall t h1)
      · omega
    · by_cases hh : b.payload.blockHash ≠ l.hash (makeHeader l b (UInt64.ofNat b.payload.baseFee.toNat) txs)
      · have e : build l proof b batch = .err := by
          unfold build buildHeader; rw [hd]; simp only [if_neg hfee, if_pos hh, E2store.Res.bind]
        rw [e]
        have hno : ¬∃ h body, BlockOf l b h body := by
          rintro ⟨h, body, hb⟩
          have ht := hb.transactions
          rw [hm] at ht
          have ht := (List.map_inj_right (fun _ _ => Option.some.inj)).mp ht
          rw [ht, makeHeader_of l b h body hb] at hh
          exact hh hb.carries.hash
        refine ⟨⟨fun _ => .inr ⟨by omega, hno⟩, fun _ => rfl⟩, ⟨fun h => (by cases h), ?_⟩⟩
        rintro ⟨_, h | ⟨h, _⟩⟩
        · omega
        · exact absurd rfl h
      · have e : build l proof b batch = match proof b batch with
            | none => .panic
            | some p => .ok ((makeHeader l b (UInt64.ofNat b.payload.baseFee.toNat) txs, p),
                ⟨txs, [], bodyWithdrawals b⟩) := by
          unfold build buildHeader; rw [hd]; simp only [if_neg hfee, if_neg hh, E2store.Res.bind]
          cases proof b batch <;> rfl
        rw [e]
        refine ⟨⟨fun h => ?_, ?_⟩, ⟨fun h => ⟨hall, .inr ⟨?_, ?_⟩⟩, ?_⟩⟩
        · split at h <;> cases h
        · rintro (⟨t, h1, h2⟩ | ⟨h1, h3⟩)
          · exact absurd h2 (hall t h1)
          · exact absurd ⟨_, _, of_makeHeader l b txs h1 hm (Decidable.not_not.mp hh)⟩ h3
        · rw [h]; exact fun h => by cases h
        · cases hp : proof b batch with
          | none => rfl
          | some p => rw [hp] at h; cases h
        · rintro ⟨_, h | ⟨_, h⟩⟩
          · omega
          · rw [h]

/-- A wrong base fee aborts the program instead of giving an error. -/
theorem C70_base_fee_violated (l : ExecLib Tx Rc Wd) (proof : Beacon Wd → Bt → Option P) (b : Beacon Wd) (batch : Bt)
    (htx : ∀ t ∈ b.payload.transactions, l.txEnvelope t ≠ none) (hf : 2 ^ 64 ≤ b.payload.baseFee.toNat) :
    build l proof b batch = .panic :=
  (C70_refused_partial l proof b batch).2.mpr ⟨htx, .inl hf⟩

namespace ExecBuilderExample

/-- Encodings that keep something of every field, and hashes that add up bytes. -/
def lib : ExecLib Bytes Bytes Bytes where
  header := ⟨fun h => toLe 8 h.number.toNat ++ toLe 32 h.transactionsRoot.toNat ++
    toLe 32 (h.withdrawalsRoot.getD 0).toNat ++ toLe 32 (h.requestsHash.getD 0).toNat, fun _ => none⟩
  ommers := ⟨fun _ => [0xc0], fun _ => none⟩
  tx := ⟨fun t => 2 :: t, fun _ => none⟩
  txEnvelope bs := match bs with | 2 :: t => some t | _ => none
  receipt := ⟨id, some⟩
  withdrawal := ⟨id, some⟩
  keccak bs := BitVec.ofNat 256 (fromLe bs + 7)
  sha256 bs := BitVec.ofNat 256 (bs.foldl (fun n b => n * 31 + b.toNat) 1)
  trieRoot bs := BitVec.ofNat 256 (bs.map fun b => fromLe b + b.length + 1).sum

def payload (fee : Nat) (hash : Id) : Payload Bytes where
  parentHash := 1
  feeRecipient := 2
  stateRoot := 3
  receiptsRoot := 4
  logsBloom := [5]
  prevRandao := 6
  blockNumber := 17000000
  gasLimit := 8
  gasUsed := 9
  timestamp := 10
  extraData := [11]
  baseFee := BitVec.ofNat 256 fee
  blockHash := hash
  transactions := [[2, 12, 13], [2]]
  withdrawals := [[14]]
  blobGasUsed := 15
  excessBlobGas := 16

def beacon (fork : Fork) (fee : Nat) (hash : Id) : Beacon Bytes :=
  ⟨fork, 100, 18, payload fee hash, ⟨[19], [], [20, 21]⟩⟩

/-- The block of each fork, with the right hash. -/
def header (fork : Fork) : Header := makeHeader lib (beacon fork 7 0) 7 [[12, 13], []]
def body (fork : Fork) : Body Header Bytes Bytes :=
  ⟨[[12, 13], []], [], if fork = .bellatrix then none else some [[14]]⟩
def block (fork : Fork) : Beacon Bytes := beacon fork 7 (lib.hash (header fork))

theorem carries (fork : Fork) : CarriesBlock lib (block fork) (header fork) (body fork) := by
  cases fork <;> exact ⟨rfl, rfl, rfl, rfl, rfl, rfl, rfl, rfl, rfl, rfl, rfl, rfl, by decide +kernel, rfl,
    by decide +kernel, by decide +kernel, by decide +kernel, by decide +kernel⟩

theorem blockOf (fork : Fork) : BlockOf lib (block fork) (header fork) (body fork) :=
  ⟨by cases fork <;> exact ⟨rfl, rfl, rfl, rfl, rfl, rfl, rfl, rfl, rfl⟩, carries fork,
    by cases fork <;> exact ⟨rfl, rfl, rfl⟩, by cases fork <;> rfl, by cases fork <;> rfl⟩

/-- Blocks of all forks are rebuilt. -/
theorem rebuilt (fork : Fork) : build lib (fun b (k : Nat) => some (b.slot, k)) (block fork) 5 =
    .ok ((header fork, (100, 5)), body fork) :=
  (C70_exact lib _ (block fork) 5 _ (header fork) (body fork)).mpr ⟨blockOf fork, by cases fork <;> rfl⟩

/-- And their bodies are valid. -/
example (fork : Fork) : validateBody lib.lib (body fork) (header fork) = true :=
  (C70_valid lib _ (block fork) 5 _ _ _ (rebuilt fork)).1

/-- The same block in two beacon blocks of different slots. -/
example (p : UInt64 × Nat) (h : Header) (body' : Body Header Bytes Bytes)
    (hb : build lib (fun b (k : Nat) => some (b.slot, k)) { block .capella with slot := 101 } 6 = .ok ((h, p), body'))
    (hne : lib.header.enc (header .capella) = lib.header.enc h → header .capella = h) :
    header .capella = h ∨ (lib.header.enc (header .capella) ≠ lib.header.enc h ∧
      lib.keccak (lib.header.enc (header .capella)) = lib.keccak (lib.header.enc h)) :=
  C70_unique lib _ _ _ 5 6 _ _ _ _ _ _ (rebuilt .capella) hb rfl hne
example : build lib (fun b (k : Nat) => some (b.slot, k)) { block .capella with slot := 101 } 6 =
    .ok ((header .capella, (101, 6)), body .capella) :=
  (C70_exact lib _ { block .capella with slot := 101 } 6 _ _ _).mpr
    ⟨⟨(blockOf .capella).1, by have h := carries .capella; exact ⟨h.1, h.2, h.3, h.4, h.5, h.6, h.7, h.8, h.9, h.10,
      h.11, h.12, h.13, h.14, h.15, h.16, h.17, h.18⟩, (blockOf .capella).3, rfl, (blockOf .capella).5⟩, rfl⟩

/-- The header of Electra holds the hash of the requests; without consolidations it is another one. -/
example : (header .electra).requestsHash = some (requestsHash lib ⟨[19], [], [20, 21]⟩) ∧
    requestsHash lib ⟨[19], [], []⟩ ≠ requestsHash lib ⟨[19], [], [20, 21]⟩ := by
  refine ⟨rfl, ?_⟩
  decide +kernel

/-- A wrong block hash is refused. -/
example : build lib (fun _ (_ : Nat) => some ()) (beacon .deneb 7 0) 5 = .err := by
  refine (C70_refused_partial lib (fun _ (_ : Nat) => some ()) (beacon .deneb 7 0) 5).1.mpr (.inr ⟨by decide +kernel, ?_⟩)
  rintro ⟨h, body, hb⟩
  have ht : body.transactions = [[12, 13], []] := by
    have : ([[12, 13], []] : List Bytes).map some = body.transactions.map some := hb.transactions
    exact ((List.map_inj_right (fun _ _ => Option.some.inj)).mp this).symm
  have h2 := hb.carries.hash
  rw [← makeHeader_of lib _ h body hb, ht] at h2
  revert h2
  decide +kernel

/-- A base fee of 2^64. -/
example : build lib (fun _ (_ : Nat) => some ()) (beacon .deneb (2 ^ 64) 0) 5 = .panic :=
  C70_base_fee_violated lib _ _ 5 (by
    intro t ht
    simp only [beacon, payload, List.mem_cons, List.not_mem_nil, or_false] at ht
    rcases ht with rfl | rfl <;> exact fun h => by cases h) (by decide +kernel)

end ExecBuilderExample

end Verif.Props
