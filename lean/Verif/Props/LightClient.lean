import Verif.Lemmas.LightClient
import Verif.Lemmas.Merkle
import Verif.Props.Merkle
import Verif.Props.MerkleSpec
import Verif.Lemmas.ExceptEq

/-! # C40, C41, C42: the light client -/

namespace Verif.Props
open Verif.LightClient Verif.Merkle

/-! ## Specification -/

/-- The sync committee period of a slot: 256 epochs of 32 slots. -/
def periodOf (h : Header) : Nat := h.slot.toNat / 8192

/-- The true chain: which headers are on it, and the sync committee of each period. -/
structure Chain where
  canonical : Header → Prop
  committee : Nat → Committee

/-- At least two thirds of the 512 members. -/
def Supermajority (u : Update) : Prop := 2 * 512 ≤ 3 * u.bits.count true

/-- The participating members of a committee signed the attested header for the fork of the signature
slot. -/
def SignedBy (env : Env) (cfg : Config) (c : Committee) (u : Update) : Prop :=
  env.verifySig u.signature
    (signingRoot env.H cfg.genesisRoot (headerRoot env.H u.attested) (cfg.forkVersion u.signatureSlot))
    (((c.pubkeys.zip u.bits).filter fun kb => kb.2).map fun kb => kb.1) = true

/-- What the client trusts about a message: two thirds of the committee of the period sign only headers of
the chain, and the state of a header of the chain commits to a finalized header of the chain and to the
committee of the next period (`C41_finalized_binding` and `C41_next_binding` reduce this to the absence of
hash collisions). -/
structure Honest (env : Env) (cfg : Config) (ch : Chain) (u : Update) : Prop where
  signed : Supermajority u → SignedBy env cfg (ch.committee (u.signatureSlot / 8192)) u → ch.canonical u.attested
  finalized : ∀ f b, u.finalized = some f → u.finalityBranch = some b → ch.canonical u.attested →
    finalityProofValid env u.attested f b = true → ch.canonical f
  next : ∀ c b, u.nextCommittee = some c → u.nextBranch = some b → ch.canonical u.attested →
    nextCommitteeProofValid env u.attested c b = true → c = ch.committee (periodOf u.attested + 1)

/-- What the client trusts about a bootstrap: the checkpoint is on the chain, and its state commits to the
committee of its period. -/
structure HonestBootstrap (env : Env) (cfg : Config) (ch : Chain) (b : Bootstrap) : Prop where
  header : headerRoot env.H b.header = cfg.checkpoint → ch.canonical b.header
  committee : ch.canonical b.header → currentCommitteeProofValid env b.header b.committee b.branch = true →
    b.committee = ch.committee (periodOf b.header)

/-- The client follows the chain: its finalized header is on it, the current committee is that of the
header's period and the next committee, if known, that of the period after. -/
structure Follows (ch : Chain) (c : Client) : Prop where
  finalized : ch.canonical c.store.finalized
  current : c.store.current = ch.committee (periodOf c.store.finalized)
  next : ∀ n, c.store.next = some n → n = ch.committee (periodOf c.store.finalized + 1)

/-! ## C40 -/

/-- `c'` is at or after `c`. -/
structure NoRegress (c c' : Client) : Prop where
  finalized : c.store.finalized.slot.toNat ≤ c'.store.finalized.slot.toNat
  optimistic : c.store.optimistic.slot.toNat ≤ c'.store.optimistic.slot.toNat
  order : c.store.finalized.slot.toNat ≤ c.store.optimistic.slot.toNat →
    c'.store.finalized.slot.toNat ≤ c'.store.optimistic.slot.toNat

theorem NoRegress.refl (c : Client) : NoRegress c c := ⟨Nat.le_refl _, Nat.le_refl _, id⟩

theorem NoRegress.trans {a b c : Client} (h1 : NoRegress a b) (h2 : NoRegress b c) : NoRegress a c :=
  ⟨Nat.le_trans h1.finalized h2.finalized, Nat.le_trans h1.optimistic h2.optimistic,
    fun h => h2.order (h1.order h)⟩

/-- An applied update, whatever it contains, moves neither header back and keeps the finalized header at or
before the optimistic one. -/
theorem C40_apply (env : Env) (c : Client) (m : Msg) : NoRegress c (applyMsg env c m) := by
  refine ⟨?_, ?_, ?_⟩ <;> rw [applyMsg_store]
  · exact applyUpdate_monotone _ _
  · exact (applyUpdate_optimistic _ _).1
  · exact (applyUpdate_optimistic _ _).2

/-- After any sequence of `advance` calls, whatever the network answers. -/
theorem C40_advance (env : Env) (cfg : Config) (is : List AdvanceInput) (c : Client) :
    NoRegress c (is.foldl (fun c i => (advance env cfg c i).1) c) := by
  induction is generalizing c with
  | nil => exact NoRegress.refl c
  | cons i is ih =>
    refine NoRegress.trans ?_ (ih (advance env cfg c i).1)
    refine advance_induct (fun c' => NoRegress c c') (fun _ => True) ?_ c i (NoRegress.refl c)
      (fun _ _ => trivial)
    intro a now m b ha _ hp
    obtain ⟨-, rfl⟩ := (process_iff env cfg now a b m).mp hp
    exact ha.trans (C40_apply env a m)

/-- After `sync` the client is at the bootstrap header or later, or the bootstrap was refused and nothing
changed. -/
theorem C40_sync (env : Env) (cfg : Config) (c : Client) (i : SyncInput) :
    (∃ now b, i.bootstrap = some (now, b) ∧
      b.header.slot.toNat ≤ (sync env cfg c i).1.store.finalized.slot.toNat ∧
      (sync env cfg c i).1.store.finalized.slot.toNat ≤ (sync env cfg c i).1.store.optimistic.slot.toNat) ∨
    sync env cfg c i = (c, false) := by
  have := sync_induct (env := env) (cfg := cfg)
    (fun c' => ∃ now b, i.bootstrap = some (now, b) ∧ b.header.slot.toNat ≤ c'.store.finalized.slot.toNat ∧
      c'.store.finalized.slot.toNat ≤ c'.store.optimistic.slot.toNat) (fun _ => True)
    (by
      rintro a now m b ⟨n, bs, hb, h1, h2⟩ - hp
      obtain ⟨-, rfl⟩ := (process_iff env cfg now a b m).mp hp
      have h3 := C40_apply env a m
      exact ⟨n, bs, hb, Nat.le_trans h1 h3.finalized, h3.order h2⟩) c i
    (by
      intro now b c' hb hc
      refine ⟨now, b, hb, ?_⟩
      simp only [bootstrap] at hc
      repeat (split at hc; · cases hc)
      cases hc
      exact ⟨Nat.le_refl _, Nat.le_refl _⟩)
    (fun _ _ => trivial)
  exact this.imp id (fun h => h.1)

/-- A header becomes finalized only by an update signed by two thirds of the committee of the signature's
period as the client knows it, whose proof shows the header to be the one finalized in the attested
state. -/
theorem C40_finalized_supermajority (env : Env) (cfg : Config) (now : Nat) (c c' : Client) (m : Msg)
    (h : process env cfg now c m = .ok c') (hf : c'.store.finalized ≠ c.store.finalized) :
    Supermajority m.generic ∧
    m.generic.finalized = some c'.store.finalized ∧
    c.store.finalized.slot.toNat < c'.store.finalized.slot.toNat ∧
    c'.store.finalized.slot.toNat ≤ m.generic.attested.slot.toNat ∧
    m.generic.attested.slot.toNat < m.generic.signatureSlot ∧ m.generic.signatureSlot ≤ now ∧
    (∃ b, m.generic.finalityBranch = some b ∧
      finalityProofValid env m.generic.attested c'.store.finalized b = true) ∧
    ((m.generic.signatureSlot / 8192 = periodOf c.store.finalized ∧
        SignedBy env cfg c.store.current m.generic) ∨
      (∃ n, c.store.next = some n ∧ m.generic.signatureSlot / 8192 = periodOf c.store.finalized + 1 ∧
        SignedBy env cfg n m.generic)) := by
  obtain ⟨hv, rfl⟩ := (process_iff env cfg now c c' m).mp h
  rw [applyMsg_store] at hf ⊢
  rcases applyUpdate_finalized c.store m.generic with he | ⟨f, hfs, hfe, hgt, hmaj, -⟩
  · exact absurd he hf
  · have hslot : m.generic.finalizedSlot = f.slot.toNat := by simp [Update.finalizedSlot, hfs]
    obtain ⟨com, hcom, hsig⟩ := hv.signature
    have hsigned : SignedBy env cfg com m.generic := by
      simp only [checkSignature] at hsig
      split at hsig
      · cases hsig
      · split at hsig
        · next hs => exact hs
        · cases hsig
    have hp : ∀ h : Header, periodOf h = syncPeriod h.slot.toNat := fun h => (syncPeriod_eq _).symm
    rw [hfe]
    refine ⟨by rw [Supermajority]; rw [countBits] at hmaj; omega, hfs, hgt, by rw [← hslot]; exact hv.finalized,
      hv.attested, hv.time, ?_, ?_⟩
    · have hpr := hv.finalityProof
      cases m with
      | full a b s t nc nb f' fb => simp only [Msg.generic, Option.some.injEq] at hfs; subst hfs; exact ⟨fb, rfl, hpr⟩
      | finality a b s t f' fb => simp only [Msg.generic, Option.some.injEq] at hfs; subst hfs; exact ⟨fb, rfl, hpr⟩
      | optimistic a b s t => simp [Msg.generic] at hfs
    · rw [hp, ← syncPeriod_eq]
      simp only [signingCommittee] at hcom
      split at hcom
      · next he => cases hcom; exact Or.inl ⟨he, hsigned⟩
      · next he => exact Or.inr ⟨com, hcom, (hv.period.resolve_left he).2, hsigned⟩

/-- A header becomes the head only if it was attested, is newer, and was signed by more than half of the
highest number of participants seen in this and the previous period, counting this update - or if it has
just been finalized. -/
theorem C40_head (env : Env) (cfg : Config) (now : Nat) (c c' : Client) (m : Msg)
    (h : process env cfg now c m = .ok c') (ho : c'.store.optimistic ≠ c.store.optimistic) :
    c.store.optimistic.slot.toNat < c'.store.optimistic.slot.toNat ∧
    ((c'.store.optimistic = m.generic.attested ∧
        c.store.currentMax / 2 < m.generic.bits.count true ∧ c.store.previousMax / 2 < m.generic.bits.count true) ∨
      (c'.store.optimistic = c'.store.finalized ∧ c'.store.finalized ≠ c.store.finalized)) := by
  obtain ⟨hv, rfl⟩ := (process_iff env cfg now c c' m).mp h
  rw [applyMsg_store] at ho ⊢
  have h1 := applyOptimistic_optimistic c.store m.generic
  have h1f := applyOptimistic_fields c.store m.generic
  have hmax : countBits m.generic.bits > max (max c.store.currentMax (countBits m.generic.bits))
      c.store.previousMax / 2 → c.store.currentMax / 2 < m.generic.bits.count true ∧
        c.store.previousMax / 2 < m.generic.bits.count true := by
    rw [countBits]; omega
  have hcase : (applyOptimistic c.store m.generic).optimistic = c.store.optimistic ∨
      (c.store.optimistic.slot.toNat < (applyOptimistic c.store m.generic).optimistic.slot.toNat ∧
        (applyOptimistic c.store m.generic).optimistic = m.generic.attested ∧
        c.store.currentMax / 2 < m.generic.bits.count true ∧
        c.store.previousMax / 2 < m.generic.bits.count true) := by
    rw [h1]
    split
    · next hc => right; exact ⟨hc.2, rfl, hmax hc.1⟩
    · left; rfl
  simp only [applyUpdate] at ho ⊢
  split at ho
  · next hs =>
    rw [if_pos hs]
    have h2 := applyCommittees_fields (applyOptimistic c.store m.generic) m.generic
    simp only [applyFinalized, h2.1, h2.2, h1f.1] at ho ⊢
    cases hfin : m.generic.finalized with
    | none =>
      simp only [hfin, h2.2] at ho ⊢
      rcases hcase with hc | hc
      · exact absurd hc ho
      · exact ⟨hc.1, Or.inl hc.2⟩
    | some f =>
      simp only [hfin] at ho ⊢
      by_cases hgt : f.slot.toNat > c.store.finalized.slot.toNat
      · rw [if_pos hgt] at ho ⊢
        simp only at ho ⊢
        by_cases hgo : f.slot.toNat > (applyOptimistic c.store m.generic).optimistic.slot.toNat
        · rw [if_pos hgo] at ho ⊢
          refine ⟨Nat.lt_of_le_of_lt (applyOptimistic_monotone c.store m.generic) hgo, Or.inr ⟨rfl, ?_⟩⟩
          intro he
          rw [he] at hgt
          omega
        · rw [if_neg hgo] at ho ⊢
          rcases hcase with hc | hc
          · exact absurd hc ho
          · exact ⟨hc.1, Or.inl hc.2⟩
      · rw [if_neg hgt] at ho ⊢
        rw [h2.2] at ho ⊢
        rcases hcase with hc | hc
        · exact absurd hc ho
        · exact ⟨hc.1, Or.inl hc.2⟩
  · next hs =>
    rw [if_neg hs]
    rcases hcase with hc | hc
    · exact absurd hc ho
    · exact ⟨hc.1, Or.inl hc.2⟩

/-- Progress: a finality update for a newer header, properly signed by two thirds of the committee of the
current period (or the next, if known), is accepted and its header becomes the finalized one. -/
theorem C40_progress (env : Env) (cfg : Config) (now : Nat) (c : Client) (com : Committee)
    (a f : Header) (bits : List Bool) (sig : Bytes) (slot : Nat) (branch : List Id)
    (hmaj : Supermajority (Msg.finality a bits sig slot f branch).generic)
    (hcom : (slot / 8192 = periodOf c.store.finalized ∧ com = c.store.current) ∨
      (slot / 8192 = periodOf c.store.finalized + 1 ∧ c.store.next = some com))
    (ht : c.store.finalized.slot.toNat < f.slot.toNat ∧ f.slot.toNat ≤ a.slot.toNat ∧ a.slot.toNat < slot ∧
      slot ≤ now)
    (hp : finalityProofValid env a f branch = true)
    (hk : ∀ k ∈ com.pubkeys, env.keyOk k = true)
    (hs : SignedBy env cfg com (Msg.finality a bits sig slot f branch).generic) :
    ∃ c', process env cfg now c (.finality a bits sig slot f branch) = .ok c' ∧ c'.store.finalized = f := by
  have hpe : ∀ h : Header, periodOf h = syncPeriod h.slot.toNat := fun h => (syncPeriod_eq _).symm
  rw [hpe, ← syncPeriod_eq] at hcom
  have hv : Verified env cfg now c.store (Msg.finality a bits sig slot f branch).generic := by
    refine ⟨?_, ht.2.2.2, ht.2.2.1, ht.2.1, ?_, Or.inl (by show c.store.finalized.slot.toNat < a.slot.toNat; omega),
      hp, rfl, com, ?_, ?_⟩
    · rw [Supermajority] at hmaj
      rw [countBits]
      omega
    · rcases hcom with h | h
      · exact Or.inl h.1
      · exact Or.inr ⟨by rw [h.2]; rfl, h.1⟩
    · unfold signingCommittee
      rcases hcom with h | h
      · rw [if_pos (show syncPeriod (Msg.finality a bits sig slot f branch).generic.signatureSlot =
            syncPeriod c.store.finalized.slot.toNat from h.1), h.2]
      · have hne : ¬ syncPeriod (Msg.finality a bits sig slot f branch).generic.signatureSlot =
            syncPeriod c.store.finalized.slot.toNat := by
          show ¬ syncPeriod slot = _
          omega
        rw [if_neg hne, h.2]
    · simp only [checkSignature]
      have hall : (participatingKeys com (Msg.finality a bits sig slot f branch).generic.bits).all env.keyOk =
          true := by
        rw [List.all_eq_true]
        intro k hk'
        simp only [participatingKeys, List.mem_map, List.mem_filter] at hk'
        obtain ⟨kb, ⟨hz, -⟩, rfl⟩ := hk'
        exact hk _ (List.of_mem_zip hz).1
      rw [hall, if_neg (by simp)]
      exact if_pos hs
  refine ⟨_, (process_iff env cfg now c _ _).mpr ⟨hv, rfl⟩, ?_⟩
  rw [applyMsg_store]
  have h1 := (applyOptimistic_fields c.store (Msg.finality a bits sig slot f branch).generic).1
  have h2 := (applyCommittees_fields (applyOptimistic c.store (Msg.finality a bits sig slot f branch).generic)
    (Msg.finality a bits sig slot f branch).generic).1
  simp only [applyUpdate]
  rw [if_pos]
  · simp only [applyFinalized]
    rw [h2, h1]
    simp only [Msg.generic]
    rw [if_pos ht.1]
  · simp only [shouldApply, h1]
    rw [Supermajority] at hmaj
    rw [countBits]
    rw [Bool.and_eq_true, Bool.or_eq_true]
    exact ⟨decide_eq_true (by omega), Or.inl (decide_eq_true ht.1)⟩

/-- Watchers are told of an update only if it moved a head, and then they see that update. -/
theorem C40_watch (env : Env) (c : Client) (m : Msg)
    (h : (applyMsg env c m).watchFull ≠ c.watchFull ∨ (applyMsg env c m).watchFinality ≠ c.watchFinality ∨
      (applyMsg env c m).watchOptimistic ≠ c.watchOptimistic) :
    c.store.optimistic.slot.toNat < (applyMsg env c m).store.optimistic.slot.toNat ∨
      c.store.finalized.slot.toNat < (applyMsg env c m).store.finalized.slot.toNat := by
  rw [applyMsg_store]
  cases m with
  | full =>
    simp only [applyMsg] at h
    split at h
    · next hm => exact hm
    · simp at h
  | finality =>
    simp only [applyMsg] at h
    split at h
    · next hm => exact hm
    · simp at h
  | optimistic =>
    simp only [applyMsg] at h
    split at h
    · next hm => exact Or.inl hm
    · simp at h

/-! ## C41 -/

/-- One message keeps the client on the chain. -/
theorem C41_step (env : Env) (cfg : Config) (ch : Chain) (now : Nat) (c c' : Client) (m : Msg)
    (hc : Follows ch c) (hm : Honest env cfg ch m.generic) (h : process env cfg now c m = .ok c') :
    Follows ch c' := by
  obtain ⟨hv, rfl⟩ := (process_iff env cfg now c c' m).mp h
  have hgen : m.generic.finalized = none ∧ m.generic.nextCommittee = none ∨
      ∃ f fb, m.generic.finalized = some f ∧ m.generic.finalityBranch = some fb ∧
        finalityProofValid env m.generic.attested f fb = true ∧
        (m.generic.nextCommittee = none ∨ ∃ nc nb, m.generic.nextCommittee = some nc ∧
          m.generic.nextBranch = some nb ∧ nextCommitteeProofValid env m.generic.attested nc nb = true) := by
    have h1 := hv.finalityProof
    have h2 := hv.nextProof
    cases m with
    | full a b s t nc nb f fb => exact Or.inr ⟨f, fb, rfl, rfl, h1, Or.inr ⟨nc, nb, rfl, rfl, h2⟩⟩
    | finality a b s t f fb => exact Or.inr ⟨f, fb, rfl, rfl, h1, Or.inl rfl⟩
    | optimistic a b s t => exact Or.inl ⟨rfl, rfl⟩
  have hstore := applyMsg_store env c m
  suffices hg : ch.canonical (applyUpdate c.store m.generic).finalized ∧
      (applyUpdate c.store m.generic).current = ch.committee (periodOf (applyUpdate c.store m.generic).finalized) ∧
      (∀ n, (applyUpdate c.store m.generic).next = some n →
        n = ch.committee (periodOf (applyUpdate c.store m.generic).finalized + 1)) by
    refine ⟨?_, ?_, ?_⟩ <;> rw [hstore]
    · exact hg.1
    · exact hg.2.1
    · exact hg.2.2
  clear h hstore
  generalize m.generic = u at *
  obtain ⟨sf, sc, sn⟩ := hc
  generalize c.store = s at *
  have h1 := applyOptimistic_fields s u
  -- the update is not applied: nothing but the head and a counter change
  by_cases hs : shouldApply (applyOptimistic s u) u = true
  case neg =>
    simp only [applyUpdate, if_neg hs, h1.1, h1.2.1, h1.2.2.1]
    exact ⟨sf, sc, sn⟩
  have hs' := hs
  simp only [shouldApply, Bool.and_eq_true, Bool.or_eq_true, decide_eq_true_eq, h1.1, h1.2.2.1] at hs'
  obtain ⟨hmaj, hnew⟩ := hs'
  have hmaj' : Supermajority u := by rw [Supermajority]; rw [countBits] at hmaj; omega
  -- periods as quotients
  have hrel := hv.relevant
  have hper := hv.period
  have hatt := hv.attested
  have hfin := hv.finalized
  simp only [syncPeriod_eq] at hrel hper
  -- the attested header is on the chain
  have hcanon : ch.canonical u.attested := by
    apply hm.signed hmaj'
    obtain ⟨com, hcom, hsig⟩ := hv.signature
    have hsigned : SignedBy env cfg com u := by
      simp only [checkSignature] at hsig
      split at hsig
      · cases hsig
      · split at hsig
        · next hs => exact hs
        · cases hsig
    have : com = ch.committee (u.signatureSlot / 8192) := by
      simp only [signingCommittee, syncPeriod_eq] at hcom
      split at hcom
      · next he =>
        cases hcom
        rw [sc, periodOf, he]
      · next he =>
        rw [sn com hcom, periodOf, (hper.resolve_left he).2]
    rw [← this]
    exact hsigned
  have hnextc : ∀ n, u.nextCommittee = some n → n = ch.committee (periodOf u.attested + 1) := by
    intro n hn
    rcases hgen with hg | ⟨f, fb, -, -, -, hg | ⟨nc, nb, hnc, hnb, hp⟩⟩
    · rw [hg.2] at hn; cases hn
    · rw [hg] at hn; cases hn
    · rw [hnc] at hn
      injection hn with hn
      subst hn
      exact hm.next _ nb hnc hnb hcanon hp
  have hfinc : ∀ f, u.finalized = some f → ch.canonical f := by
    intro f hf
    rcases hgen with hg | ⟨f', fb, hf', hfb, hp, -⟩
    · rw [hg.1] at hf; cases hf
    · rw [hf'] at hf
      injection hf with hf
      subst hf
      exact hm.finalized _ fb hf' hfb hcanon hp
  simp only [applyUpdate, if_pos hs]
  have h3 := applyFinalized_fields (applyCommittees (applyOptimistic s u) u) u
  have h2 := applyCommittees_fields (applyOptimistic s u) u
  rw [h3.1, h3.2]
  cases hn : s.next with
  | none =>
    -- the period of the attested header is that of the store
    have hsp : u.signatureSlot / 8192 = s.finalized.slot.toNat / 8192 := by
      rcases hper with h | h
      · exact h
      · rw [hn] at h; simp at h
    have hap : u.attested.slot.toNat / 8192 = s.finalized.slot.toNat / 8192 := by
      rcases hrel with h | h
      · omega
      · exact h.2.2
    have hcom : applyCommittees (applyOptimistic s u) u =
        { applyOptimistic s u with next := u.nextCommittee } := by
      simp only [applyCommittees, h1.2.2.1, hn]
    rw [hcom]
    simp only [applyFinalized, h1.1, h1.2.1]
    have hnx : ∀ n, u.nextCommittee = some n → n = ch.committee (periodOf s.finalized + 1) := by
      intro n h
      have := hnextc n h
      rwa [periodOf, hap] at this
    cases hf : u.finalized with
    | none => exact ⟨sf, sc, hnx⟩
    | some f =>
      simp only
      split
      · next hgt =>
        have hfs : f.slot.toNat ≤ u.attested.slot.toNat := by simpa [Update.finalizedSlot, hf] using hfin
        have hfp : periodOf f = periodOf s.finalized := by simp only [periodOf]; omega
        exact ⟨hfinc f hf, by rw [hfp]; exact sc, by rw [hfp]; exact hnx⟩
      · exact ⟨sf, sc, hnx⟩
  | some n =>
    have hgt0 : u.finalizedSlot > s.finalized.slot.toNat := by
      rcases hnew with h | h
      · exact h
      · rw [hn] at h; simp at h
    cases hf : u.finalized with
    | none => simp [Update.finalizedSlot, hf] at hgt0
    | some f =>
      have hfs : u.finalizedSlot = f.slot.toNat := by simp [Update.finalizedSlot, hf]
      rw [hfs] at hgt0 hfin
      have hfe : (applyFinalized (applyCommittees (applyOptimistic s u) u) u).finalized = f := by
        simp only [applyFinalized, hf, h2.1, h1.1]
        rw [if_pos hgt0]
      rw [hfe]
      refine ⟨hfinc f hf, ?_⟩
      simp only [applyCommittees, h1.2.2.1, hn, h1.1, hfs, syncPeriod_eq]
      by_cases hadv : f.slot.toNat / 8192 = s.finalized.slot.toNat / 8192 + 1
      · rw [if_pos hadv]
        simp only
        have hfp : periodOf f = periodOf s.finalized + 1 := hadv
        refine ⟨?_, ?_⟩
        · rw [hfp]; exact sn n hn
        · intro n' hn'
          have := hnextc n' hn'
          have hp : periodOf u.attested = periodOf f := by
            simp only [periodOf]
            rcases hper with h | h <;> omega
          rw [hp] at this
          exact this
      · rw [if_neg hadv]
        have hfp : periodOf f = periodOf s.finalized := by
          simp only [periodOf]
          rcases hper with h | h <;> omega
        rw [hfp, h1.2.1, h1.2.2.1]
        exact ⟨sc, sn⟩

/-- A history of `advance` calls keeps the client on the chain. -/
theorem C41_advance (env : Env) (cfg : Config) (ch : Chain) (is : List AdvanceInput) (c : Client)
    (hc : Follows ch c) (hm : ∀ i ∈ is, ∀ u ∈ i.msgs, Honest env cfg ch u.2.generic) :
    Follows ch (is.foldl (fun c i => (advance env cfg c i).1) c) := by
  induction is generalizing c with
  | nil => exact hc
  | cons i is ih =>
    refine ih _ ?_ (fun j hj => hm j (List.mem_cons_of_mem _ hj))
    refine advance_induct (Follows ch) (fun u => Honest env cfg ch u.2.generic) ?_ c i hc (hm i (by simp))
    intro a now m b ha hu hp
    exact C41_step env cfg ch now a b m ha hu hp

/-- A successful `sync`, and everything that follows, is on the chain of the checkpoint. -/
theorem C41_history (env : Env) (cfg : Config) (ch : Chain) (i : SyncInput) (is : List AdvanceInput) (c : Client)
    (hok : (sync env cfg c i).2 = true)
    (hb : ∀ u ∈ i.bootstrap, HonestBootstrap env cfg ch u.2)
    (hs : ∀ u ∈ i.msgs, Honest env cfg ch u.2.generic)
    (hm : ∀ i ∈ is, ∀ u ∈ i.msgs, Honest env cfg ch u.2.generic) :
    Follows ch (is.foldl (fun c i => (advance env cfg c i).1) (sync env cfg c i).1) := by
  apply C41_advance env cfg ch is _ _ hm
  have := sync_induct (Follows ch) (fun u => Honest env cfg ch u.2.generic)
    (fun a now m b ha hu hp => C41_step env cfg ch now a b m ha hu hp) c i
    (by
      intro now b c' hb' hc
      have hh := hb _ (Option.mem_def.mpr hb')
      simp only [bootstrap] at hc
      split at hc
      · cases hc
      split at hc
      · cases hc
      split at hc
      · cases hc
      split at hc
      · cases hc
      next h1 h2 h3 h4 =>
      cases hc
      have hcan := hh.header (Decidable.not_not.mp h3)
      exact ⟨hcan, hh.committee hcan (by simpa using h4), fun n hn => by cases hn⟩) hs
  rcases this with h | h
  · exact h
  · rw [h.1] at hok; cases hok

/-- The checkpoint kept for the next start changes exactly when a message finalizes a later header that is the
first of its epoch, and then it is the root of that header. -/
theorem C41_checkpoint_step (env : Env) (c : Client) (m : Msg) :
    (c.store.finalized.slot.toNat < (applyMsg env c m).store.finalized.slot.toNat →
      32 ∣ (applyMsg env c m).store.finalized.slot.toNat →
      (applyMsg env c m).lastCheckpoint = some (headerRoot env.H (applyMsg env c m).store.finalized)) ∧
    (¬(c.store.finalized.slot.toNat < (applyMsg env c m).store.finalized.slot.toNat ∧
        32 ∣ (applyMsg env c m).store.finalized.slot.toNat) →
      (applyMsg env c m).lastCheckpoint = c.lastCheckpoint) := by
  have hl : (applyMsg env c m).lastCheckpoint =
      newCheckpoint env c.store (applyUpdate c.store m.generic) c.lastCheckpoint := by
    cases m <;> simp only [applyMsg] <;> split <;> rfl
  rw [applyMsg_store, hl]
  unfold newCheckpoint
  constructor
  · intro h1 h2
    rw [if_pos ⟨h1, Nat.mod_eq_zero_of_dvd h2⟩]
  · intro h
    rw [if_neg]
    exact fun h' => h ⟨h'.1, Nat.dvd_of_mod_eq_zero h'.2⟩

/-- Whatever the history, the checkpoint kept is the root of a header of the chain at the start of an epoch
(or the one the client had before it was started). -/
theorem C41_checkpoint (env : Env) (cfg : Config) (ch : Chain) (i : SyncInput) (is : List AdvanceInput) (c : Client)
    (hok : (sync env cfg c i).2 = true)
    (hb : ∀ u ∈ i.bootstrap, HonestBootstrap env cfg ch u.2)
    (hs : ∀ u ∈ i.msgs, Honest env cfg ch u.2.generic)
    (hm : ∀ i ∈ is, ∀ u ∈ i.msgs, Honest env cfg ch u.2.generic) :
    let c' := is.foldl (fun c i => (advance env cfg c i).1) (sync env cfg c i).1
    c'.lastCheckpoint = c.lastCheckpoint ∨
    ∃ h, ch.canonical h ∧ 32 ∣ h.slot.toNat ∧ c'.lastCheckpoint = some (headerRoot env.H h) := by
  have hstep : ∀ a now m b, (Follows ch a ∧ (a.lastCheckpoint = c.lastCheckpoint ∨ ∃ h, ch.canonical h ∧
      32 ∣ h.slot.toNat ∧ a.lastCheckpoint = some (headerRoot env.H h))) → Honest env cfg ch m.generic →
      process env cfg now a m = .ok b → (Follows ch b ∧ (b.lastCheckpoint = c.lastCheckpoint ∨ ∃ h, ch.canonical h ∧
      32 ∣ h.slot.toNat ∧ b.lastCheckpoint = some (headerRoot env.H h))) := by
    intro a now m b ha hu hp
    have hf := C41_step env cfg ch now a b m ha.1 hu hp
    refine ⟨hf, ?_⟩
    obtain ⟨-, rfl⟩ := (process_iff env cfg now a b m).mp hp
    have hc := C41_checkpoint_step env a m
    by_cases h : a.store.finalized.slot.toNat < (applyMsg env a m).store.finalized.slot.toNat ∧
        32 ∣ (applyMsg env a m).store.finalized.slot.toNat
    · exact Or.inr ⟨_, hf.finalized, h.2, hc.1 h.1 h.2⟩
    · rw [hc.2 h]; exact ha.2
  have h0 := sync_induct (fun a => Follows ch a ∧ (a.lastCheckpoint = c.lastCheckpoint ∨ ∃ h, ch.canonical h ∧
      32 ∣ h.slot.toNat ∧ a.lastCheckpoint = some (headerRoot env.H h)))
    (fun u => Honest env cfg ch u.2.generic) (fun a now m b ha hu hp => hstep a now m b ha hu hp) c i
    (by
      intro now b c' hb' hc
      have hh := hb _ (Option.mem_def.mpr hb')
      simp only [bootstrap] at hc
      split at hc
      · cases hc
      split at hc
      · cases hc
      split at hc
      · cases hc
      split at hc
      · cases hc
      next h1 h2 h3 h4 =>
      cases hc
      have hcan := hh.header (Decidable.not_not.mp h3)
      exact ⟨⟨hcan, hh.committee hcan (by simpa using h4), fun n hn => by cases hn⟩, Or.inl rfl⟩) hs
  have h1 := h0.resolve_right (fun h => by rw [h.1] at hok; cases hok)
  clear h0 hok hs hb
  refine And.right (a := Follows ch (is.foldl (fun c i => (advance env cfg c i).1) (sync env cfg c i).1)) ?_
  generalize (sync env cfg c i).1 = d at h1 ⊢
  induction is generalizing d with
  | nil => exact h1
  | cons x is ih =>
    refine ih (fun i hi => hm i (List.mem_cons_of_mem _ hi)) _ ?_
    exact advance_induct _ (fun u => Honest env cfg ch u.2.generic)
      (fun a now m b ha hu hp => hstep a now m b ha hu hp) d x h1 (hm x (by simp))

/-! ### What a proof against a state root binds -/

/-- The pairs hashed for a header root. -/
def headerPairs (H : Id → Id → Id) (h : Header) : List (Id × Id) :=
  treePairs H 3 fun i => (headerLeaves h).getD i 0

/-- The pairs hashed for a committee root. -/
def committeePairs (H : Id → Id → Id) (c : Committee) : List (Id × Id) :=
  (listRoot H 9 (c.pubkeys.map (pubkeyRoot H)), pubkeyRoot H c.aggregate) ::
    (treePairs H 9 (fun i => (c.pubkeys.map (pubkeyRoot H)).getD i 0) ++
      (c.aggregate :: c.pubkeys).map fun k => (chunk (k.take 32), chunk (k.drop 32)))

/-- A committee as SSZ decodes it: 512 keys of 48 bytes. -/
structure WellFormed (c : Committee) : Prop where
  count : c.pubkeys.length = 512
  keys : ∀ k ∈ c.pubkeys, k.length = 48
  aggregate : c.aggregate.length = 48

/-- Two headers with the same root are the same. -/
theorem C41_header_binding (H : Id → Id → Id) (a b : Header) (h : headerRoot H a = headerRoot H b) :
    a = b ∨ CollisionBetween H (headerPairs H a) (headerPairs H b) := by
  rw [headerRoot_eq, headerRoot_eq] at h
  refine (treeRoot_inj H 3 _ _ h).imp (fun hl => ?_) id
  have h0 := hl 0 (by decide)
  have h1 := hl 1 (by decide)
  have h2 := hl 2 (by decide)
  have h3 := hl 3 (by decide)
  have h4 := hl 4 (by decide)
  cases a
  cases b
  simp only [headerLeaves, List.getD_cons_zero, List.getD_cons_succ] at h0 h1 h2 h3 h4
  have := leNode_inj h0
  have := leNode_inj h1
  simp_all

/-- Two committees with the same root are the same. -/
theorem C41_committee_binding (H : Id → Id → Id) (a b : Committee) (ha : WellFormed a) (hb : WellFormed b)
    (h : committeeRoot H a = committeeRoot H b) :
    a = b ∨ CollisionBetween H (committeePairs H a) (committeePairs H b) := by
  apply Classical.byContradiction
  intro hno
  rw [not_or] at hno
  obtain ⟨hne, hnc⟩ := hno
  have hpair : ∀ p ∈ committeePairs H a, ∀ q ∈ committeePairs H b, H p.1 p.2 = H q.1 q.2 → p = q := by
    intro p hp q hq he
    apply Classical.byContradiction
    intro hpq
    exact hnc ⟨p, hp, q, hq, hpq, he⟩
  have htop := hpair (listRoot H 9 (a.pubkeys.map (pubkeyRoot H)), pubkeyRoot H a.aggregate) List.mem_cons_self
    (listRoot H 9 (b.pubkeys.map (pubkeyRoot H)), pubkeyRoot H b.aggregate) List.mem_cons_self h
  injection htop with hkeys hagg
  have key : ∀ k ∈ a.aggregate :: a.pubkeys, ∀ l ∈ b.aggregate :: b.pubkeys,
      pubkeyRoot H k = pubkeyRoot H l → k.length = 48 → l.length = 48 → k = l := by
    intro k hk l hl he h1 h2
    have := hpair (chunk (k.take 32), chunk (k.drop 32))
      (List.mem_cons_of_mem _ (List.mem_append_right _ (List.mem_map_of_mem hk)))
      (chunk (l.take 32), chunk (l.drop 32))
      (List.mem_cons_of_mem _ (List.mem_append_right _ (List.mem_map_of_mem hl))) he
    injection this with e1 e2
    exact key_ext h1 h2 e1 e2
  have hleaves := (treeRoot_inj H 9 _ _ hkeys).resolve_right (fun hc => hnc (hc.mono
    (fun x hx => List.mem_cons_of_mem _ (List.mem_append_left _ hx))
    (fun x hx => List.mem_cons_of_mem _ (List.mem_append_left _ hx))))
  apply hne
  have e1 : a.aggregate = b.aggregate :=
    key _ (by simp) _ (by simp) hagg ha.aggregate hb.aggregate
  have e2 : a.pubkeys = b.pubkeys := by
    apply List.ext_getElem (by rw [ha.count, hb.count])
    intro i h1 h2
    have := hleaves i (by rw [ha.count] at h1; exact h1)
    simp only [List.getD_eq_getElem?_getD, List.getElem?_map, List.getElem?_eq_getElem h1,
      List.getElem?_eq_getElem h2, Option.map_some, Option.getD_some] at this
    exact key _ (List.mem_cons_of_mem _ (List.getElem_mem h1)) _ (List.mem_cons_of_mem _ (List.getElem_mem h2)) this
      (ha.keys _ (List.getElem_mem h1)) (hb.keys _ (List.getElem_mem h2))
  cases a; cases b
  simp_all

/-- A finality proof against a header whose state commits to the finalized root `r` (leaf 41 of 128) shows
`r`, unless hashed pairs collide. -/
theorem C41_finalized_binding (env : Env) (a f : Header) (branch : List Id) (state : Nat → Id)
    (hs : a.stateRoot = treeRoot env.H 7 state) (h : finalityProofValid env a f branch = true) :
    headerRoot env.H f = state 41 ∨
      CollisionBetween env.H (branchPairs env.H (headerRoot env.H f) branch 41) (treePairs env.H 7 state) := by
  rw [finalityProofValid, proofValid, hs] at h
  exact C29_sound env.H state _ branch 7 41 h

/-- A next committee proof shows the committee at leaf 23 of the 64 of the state. -/
theorem C41_next_binding (env : Env) (a : Header) (c real : Committee) (branch : List Id) (state : Nat → Id)
    (hc : WellFormed c) (hr : WellFormed real) (hreal : state 23 = committeeRoot env.H real)
    (hs : a.stateRoot = treeRoot env.H 6 state) (h : nextCommitteeProofValid env a c branch = true) :
    c = real ∨ CollisionBetween env.H (committeePairs env.H c) (committeePairs env.H real) ∨
      CollisionBetween env.H (branchPairs env.H (committeeRoot env.H c) branch 23) (treePairs env.H 6 state) := by
  rw [nextCommitteeProofValid, proofValid, hs] at h
  rcases C29_sound env.H state _ branch 6 23 h with h' | h'
  · rcases C41_committee_binding env.H c real hc hr (h'.trans hreal) with h'' | h''
    · exact Or.inl h''
    · exact Or.inr (Or.inl h'')
  · exact Or.inr (Or.inr h')

/-- And conversely the true finalized header and next committee have proofs. -/
theorem C41_proofs_exist (env : Env) (a f : Header) (c : Committee) (s7 s6 : Nat → Id) :
    (a.stateRoot = treeRoot env.H 7 s7 → s7 41 = headerRoot env.H f →
      ∃ branch, finalityProofValid env a f branch = true) ∧
    (a.stateRoot = treeRoot env.H 6 s6 → s6 23 = committeeRoot env.H c →
      ∃ branch, nextCommitteeProofValid env a c branch = true) := by
  refine ⟨fun hs hf => ?_, fun hs hf => ?_⟩
  · obtain ⟨b, hb⟩ := C29_complete env.H s7 7 41 (by decide)
    exact ⟨b, by rw [finalityProofValid, proofValid, hs, ← hf]; exact hb⟩
  · obtain ⟨b, hb⟩ := C29_complete env.H s6 6 23 (by decide)
    exact ⟨b, by rw [nextCommitteeProofValid, proofValid, hs, ← hf]; exact hb⟩

/-! ## C42 -/

/-- A bootstrap is accepted exactly if it is not of a future slot, is young enough (or the age is not
enforced), its header hashes to the trusted checkpoint, and its committee is proven in the header's state.
The client then starts at its header. -/
theorem C42_bootstrap (env : Env) (cfg : Config) (now : Nat) (c c' : Client) (b : Bootstrap) :
    bootstrap env cfg now c b = .ok c' ↔
      b.header.slot.toNat ≤ now ∧
      (cfg.strictCheckpointAge = true → (now - b.header.slot.toNat) * 12 < cfg.maxCheckpointAge) ∧
      headerRoot env.H b.header = cfg.checkpoint ∧
      currentCommitteeProofValid env b.header b.committee b.branch = true ∧
      c' = { c with store := ⟨b.header, b.committee, none, b.header, 0, 0⟩ } := by
  simp only [bootstrap]
  constructor
  · intro h
    split at h
    · cases h
    split at h
    · cases h
    split at h
    · cases h
    split at h
    · cases h
    next h1 h2 h3 h4 =>
    injection h with h
    refine ⟨by omega, fun hs => ?_, Decidable.not_not.mp h3, by simpa using h4, h.symm⟩
    apply Decidable.byContradiction
    intro hlt
    exact h2 ⟨by omega, hs⟩
  · rintro ⟨h1, h2, h3, h4, rfl⟩
    rw [if_neg (by omega), if_neg, if_neg (by simp [h3]), if_neg (by simp [h4])]
    rintro ⟨h5, h6⟩
    have := h2 h6
    omega

/-- An accepted bootstrap is the header of the checkpoint and the committee in its state, or hashed pairs
collide. -/
theorem C42_binding (env : Env) (cfg : Config) (now : Nat) (c c' : Client) (b : Bootstrap)
    (real : Header) (committee : Committee) (state : Nat → Id)
    (hcp : cfg.checkpoint = headerRoot env.H real) (hs : real.stateRoot = treeRoot env.H 6 state)
    (hr : state 22 = committeeRoot env.H committee) (hw : WellFormed committee) (hb : WellFormed b.committee)
    (h : bootstrap env cfg now c b = .ok c') :
    (c'.store.finalized = real ∧ c'.store.optimistic = real ∧ c'.store.current = committee ∧
      c'.store.next = none) ∨
    CollisionBetween env.H (headerPairs env.H b.header) (headerPairs env.H real) ∨
    CollisionBetween env.H (committeePairs env.H b.committee) (committeePairs env.H committee) ∨
    CollisionBetween env.H (branchPairs env.H (committeeRoot env.H b.committee) b.branch 22)
      (treePairs env.H 6 state) := by
  obtain ⟨-, -, h3, h4, rfl⟩ := (C42_bootstrap env cfg now c c' b).mp h
  rcases C41_header_binding env.H b.header real (h3.trans hcp) with he | he
  · rw [currentCommitteeProofValid, proofValid, he, hs] at h4
    rcases C29_sound env.H state _ b.branch 6 22 h4 with h5 | h5
    · rcases C41_committee_binding env.H b.committee committee hb hw (h5.trans hr) with h6 | h6
      · exact Or.inl ⟨he, he, h6, rfl⟩
      · exact Or.inr (Or.inr (Or.inl h6))
    · exact Or.inr (Or.inr (Or.inr h5))
  · exact Or.inr (Or.inl he)

/-- Without a valid bootstrap `sync` fails and leaves the client as it was. -/
theorem C42_no_bootstrap (env : Env) (cfg : Config) (c : Client) (i : SyncInput)
    (h : ∀ now b, i.bootstrap = some (now, b) → ∃ e, bootstrap env cfg now c b = .error e) :
    sync env cfg c i = (c, false) := by
  simp only [sync]
  split
  · rfl
  · next now b hb =>
    obtain ⟨e, he⟩ := h now b hb
    rw [he]

/-- C42, violated part: the age is computed before the header is compared with the checkpoint, so whatever
the header is, a bootstrap of a future slot makes the subtraction underflow (an abort with overflow checks,
an age near 2^64 seconds without). -/
theorem C42_future_violated (env : Env) (cfg : Config) (now : Nat) (c : Client) (b : Bootstrap)
    (h : now < b.header.slot.toNat) : bootstrap env cfg now c b = .error .panic := by
  simp only [bootstrap]
  rw [if_pos h]

/-! ## A concrete client

The finalized header of slot 64 is replaced by the one of slot 128, attested in slot 200 and signed by 400
of 512 members. (Committees have two short keys here, to keep the evaluation short.) -/

namespace LightClientExample

def H (a b : Id) : Id := 3 * a + 5 * b + 7
def env : Env := ⟨H, fun _ => true, fun sig msg keys => sig == [1] && msg != 0 && keys == [[1], [1]]⟩
def com1 : Committee := ⟨[[1], [1]], [1]⟩
def com2 : Committee := ⟨[[2], [2]], [2]⟩
def boot : Header := ⟨64, 0, 0, merkleRootFromBranch H (committeeRoot H com1) (List.replicate 6 0) 22, 0⟩
def cfg : Config := ⟨headerRoot H boot, 0, 1000000, true, [(0, [5, 0, 0, 0])], [0, 0, 0, 0]⟩
def fin : Header := ⟨128, 1, 2, 3, 4⟩
def attFin : Header := ⟨200, 1, 2, merkleRootFromBranch H (headerRoot H fin) (List.replicate 7 0) 41, 4⟩
def bits : List Bool := List.replicate 400 true ++ List.replicate 112 false
def msg : Msg := .finality attFin bits [1] 201 fin (List.replicate 7 0)
def client0 : Client := ⟨⟨fin, com2, none, fin, 0, 0⟩, none, none, none, none⟩
def client1 : Client := ⟨⟨boot, com1, none, boot, 0, 0⟩, none, none, none, none⟩

/-- The bootstrap is accepted and the client starts there. -/
example : bootstrap env cfg 300 client0 ⟨boot, com1, List.replicate 6 0⟩ = .ok client1 := by decide +kernel

/-- The finality update is accepted: finalized header 128, head 200. -/
example : (process env cfg 300 client1 msg).map (fun c =>
      (c.store.finalized, c.store.optimistic, c.watchFinality, c.lastCheckpoint)) =
    .ok (fin, attFin, some msg, some (headerRoot H fin)) := by decide +kernel

/-- With 341 members it is accepted as a head but finalizes nothing. -/
example : (process { env with verifySig := fun _ _ _ => true } cfg 300 client1
      (.finality attFin (List.replicate 341 true ++ List.replicate 171 false) [1] 201 fin
        (List.replicate 7 0))).map (fun c => (c.store.finalized, c.store.optimistic)) =
    .ok (boot, attFin) := by decide +kernel

/-- A whole synchronisation followed by an advance. -/
example : (sync env cfg client0 ⟨some (300, ⟨boot, com1, List.replicate 6 0⟩), some [], some (300, msg),
    some (300, .optimistic ⟨210, 1, 2, 3, 4⟩ bits [1] 211)⟩).2 = true := by decide +kernel

/-- A chain for which the messages are honest. -/
def chain : Chain := ⟨fun h => h ∈ [boot, fin, attFin, ⟨210, 1, 2, 3, 4⟩], fun p => if p = 0 then com1 else com2⟩

example : Follows chain client1 := by
  refine ⟨List.mem_cons_self, rfl, fun n hn => by cases hn⟩

example : Honest env cfg chain msg.generic := by
  refine ⟨fun _ _ => by simp [chain, msg, Msg.generic], ?_, ?_⟩
  · intro f b hf _ _ _
    cases hf
    simp [chain]
  · intro c b hc
    cases hc

example : HonestBootstrap env cfg chain ⟨boot, com1, List.replicate 6 0⟩ := by
  refine ⟨fun _ => by simp [chain], fun _ _ => rfl⟩

/-- The hypotheses of `C40_progress`. -/
example : Supermajority msg.generic ∧ finalityProofValid env attFin fin (List.replicate 7 0) = true ∧
    env.verifySig [1] (signingRoot H cfg.genesisRoot (headerRoot H attFin) (cfg.forkVersion 201))
      (participatingKeys com1 bits) = true := by
  refine ⟨?_, ?_, ?_⟩
  · unfold Supermajority; decide +kernel
  · decide +kernel
  · decide +kernel

example : WellFormed ⟨List.replicate 512 (List.replicate 48 1), List.replicate 48 1⟩ :=
  ⟨List.length_replicate, fun k hk => by rw [(List.mem_replicate.mp hk).2]; rfl, rfl⟩

end LightClientExample

end Verif.Props
