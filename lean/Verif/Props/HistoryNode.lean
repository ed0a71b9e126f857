import Verif.Lemmas.HistoryNode
import Verif.Props.OfferTask
import Verif.Props.Lookup
import Verif.Lemmas.ExceptEq

/-! # C91: a history node stores, answers and passes on only content that is what its key says -/

namespace Verif.Props
open Verif Verif.ContentKey Verif.HistoryValue Verif.HistoryNode Verif.Props.HistoryNodes
open Verif.HistoryValidator hiding run
open Verif.HeaderValidator (HeaderProof Summary)
open Verif.Merkle

variable {Hd Tx Rc Wd : Type} (n : Node Hd Tx Rc Wd)

/-! ## Everything the node gives to others -/

/-- Whatever peers send, in whatever order things happen, with restarts and kills in between: if the operator put no header
under the hash of another block, then what the node stores, answers or passes on was put in by the operator, or was sent by a
peer and is what its key says. -/
theorem C91_gives (hq : Store.Sql n.db) (es : List Ev) (s : HistoryNode.State) (hl : Lives n es s) (ho : HonestOperator n es)
    (key : Legacy) (content : Bytes) (hc : NoIdCollision n (key :: keys es)) (hg : Gives n s key content) :
    ((key, content) ∈ received es ∧ Genuine n es key content) ∨ (key, content) ∈ operated es := by
  have hi := hl.inv hq ho (hc.mono fun a ha => List.mem_cons_of_mem _ ha)
  rcases hg with h | h
  · exact hi.get hc h
  · exact .inl (hi.held _ h)

/-- Content that had to leave the store, and is passed on to others, is such content too. -/
theorem C91_dropped (hq : Store.Sql n.db) (es : List Ev) (s : HistoryNode.State) (hl : Lives n es s) (ho : HonestOperator n es)
    (hc : NoIdCollision n (keys es)) (key : Legacy) (content : Bytes)
    (hk : (key, content) ∈ s.held ∨ (key, content) ∈ operated es) (sps : List Store.Speed)
    (st : Store.Config × Store.Store) (dropped : List (Legacy × Bytes))
    (hp : put n sps s.store key content = some (st, dropped)) :
    ∀ x ∈ dropped, (x ∈ received es ∧ Genuine n es x.1 x.2) ∨ x ∈ operated es := by
  have hi := hl.inv hq ho hc
  have hnew : Good n es key content := hk.imp (fun h => hi.held _ h) id
  unfold put at hp
  split at hp
  · next s' drop hins =>
    cases hp
    intro x hx
    obtain ⟨y, hy, hxy⟩ := List.mem_filterMap.mp hx
    obtain ⟨k, hk1, rfl⟩ := Option.map_eq_some_iff.mp hxy
    have hkb := C06_legacy_strict _ _ hk1
    obtain ⟨more, ht⟩ := hi.db.tracked
    have hd : Store.distance s.store.1 (n.db.idOf key.toBytes) ≤ s.store.2.radius := by
      apply Nat.le_of_not_lt
      intro hlt
      rw [Store.insert_refused n.db s.store.1 sps s.store.2 key.toBytes content hlt] at hins
      cases hins
    obtain ⟨s2, rem, rep, more', h1, h2, h3, h4, h5, h6⟩ :=
      Store.insert_spec n.db s.store.1 hq sps s.store.2 more key.toBytes content ht hd
    rw [h1] at hins
    cases hins
    obtain ⟨r, hr, rfl⟩ := List.mem_map.mp hy
    have hrem : r ∈ rem := by
      rcases h4 with ⟨-, g⟩ | ⟨-, -, -, g⟩
      · rwa [g] at hr
      · exact g r hr
    have hmem : r ∈ Store.insertRow s.store.2.rows (Store.newRow n.db s.store.1 key.toBytes content) :=
      h2.perm.mem_iff.mp (List.mem_append_right _ hrem)
    have hu := (hi.db.rows.insertRow key.toBytes content).unique
    have hlook := (Store.lookup_eq_some hu (id := r.id) (kv := (r.key, r.value))).mpr ⟨r, hmem, rfl, rfl⟩
    rw [Store.lookup_insertRow] at hlook
    have key_of : ∀ key' : Legacy, r.key = key'.toBytes → key' = k := by
      intro key' he
      exact C06_legacy_injective _ _ (he.symm.trans hkb.symm)
    split at hlook
    · next kv hkv =>
      obtain rfl := Option.some.inj hlook
      obtain ⟨key', h7, _, h8⟩ := hi.rows _ _ _ hkv
      obtain rfl := key_of key' h7
      exact h8
    · split at hlook
      · obtain ⟨h7, h8⟩ := Prod.mk.inj (Option.some.inj hlook)
        obtain rfl := key_of key h7.symm
        have h9 : r.value = content := h8.symm
        rw [h9]
        exact hnew
      · cases hlook
  · cases hp

/-! ## What this says about blocks -/

/-- The header of the block with hash `k` is the only one the node gives for that hash, and its proof was accepted. -/
theorem C91_header (hf : n.lib.Faithful) (hq : Store.Sql n.db) (es : List Ev) (s : HistoryNode.State) (hl : Lives n es s)
    (ho : HonestOperator n es) (k : Id) (bs : Bytes) (hc : NoIdCollision n (.headerByHash k :: keys es))
    (hg : Gives n s (.headerByHash k) bs) (hop : (.headerByHash k, bs) ∉ operated es) (hd : Hd)
    (hk : n.lib.keccak (n.lib.header.enc hd) = k) :
    ∃ h p, Value.decode n.lib n.net (.headerByHash k) bs = some (.header h p) ∧ Proven n es h p ∧
      (h = hd ∨ HashCollision n.lib (n.lib.header.enc h) (n.lib.header.enc hd)) := by
  rcases C91_gives n hq es s hl ho _ _ hc hg with ⟨_, h, p, h1, h2, h3⟩ | h1
  · refine ⟨h, p, h1, h3, ?_⟩
    by_cases he : n.lib.header.enc h = n.lib.header.enc hd
    · exact .inl (enc_inj hf.header he)
    · exact .inr ⟨he, h2.trans hk.symm⟩
  · exact absurd h1 hop

/-- Below the number of the first block with a proof of stake, the header the node gives for a number is the one of the chain:
the one whose hash is at that place of the trusted accumulators. -/
theorem C91_number (hf : n.lib.Faithful) (hq : Store.Sql n.db) (es : List Ev) (s : HistoryNode.State) (hl : Lives n es s)
    (ho : HonestOperator n es) (number : UInt64) (bs : Bytes) (hc : NoIdCollision n (.headerByNumber number :: keys es))
    (hg : Gives n s (.headerByNumber number) bs) (hop : (.headerByNumber number, bs) ∉ operated es)
    (records : List HeaderValidator.Record) (r : HeaderValidator.Record) (hd : Hd)
    (htrusted : n.trusted.epochs[number.toNat / 8192]? = some (epochRoot n.H records))
    (hr : records[number.toNat % 8192]? = some r) (hhash : n.lib.keccak (n.lib.header.enc hd) = r.blockHash) :
    ∃ h p, Value.decode n.lib n.net (.headerByNumber number) bs = some (.header h p) ∧
      ∀ q, p = .hashes q → h = hd ∨ HashCollision n.lib (n.lib.header.enc h) (n.lib.header.enc hd) ∨
        CollisionBetween n.H (branchPairs n.H (n.lib.hdr h).hash q.toList (2 * (2 * 8192 + number.toNat % 8192)))
          (epochPairs n.H records) := by
  rcases C91_gives n hq es s hl ho _ _ hc hg with ⟨_, h, p, h1, h2, cache, source, _, _, h3⟩ | h1
  · have ha : Accepts (⟨n.lib, n.H, n.net, n.trusted, source, fun _ => none⟩ : HistoryValidator.Env Hd Tx Rc Wd) cache
        (.headerByNumber number) bs := (C58_by_number _ cache number bs).mpr ⟨h, p, h1, h2, h3⟩
    exact C58_premerge_by_number _ cache hf number bs records r hd ha htrusted hr hhash
  · exact absurd h1 hop

/-- After the merge, the proofs of the headers that the node gives were checked against historical summaries of the true list,
if the beacon network answered only beginnings of that list (C32 says what such a proof shows). -/
theorem C91_summaries (hq : Store.Sql n.db) (es : List Ev) (s : HistoryNode.State) (hl : Lives n es s)
    (ho : HonestOperator n es) (summaries : List Summary) (hs : SummariesTrue es summaries) (key : Legacy) (bs : Bytes)
    (hc : NoIdCollision n (key :: keys es)) (hg : Gives n s key bs) (hop : (key, bs) ∉ operated es) (h : Hd) (p : HeaderProof)
    (hd : Value.decode n.lib n.net key bs = some (.header h p)) :
    ∃ cache source, cache <+: summaries ∧ (∀ e l, source e = some l → l <+: summaries) ∧
      (HeaderValidator.validate n.H n.net n.trusted cache source (n.lib.hdr h) p).1 = .accept := by
  have hcase : Proven n es h p → ∃ cache source, cache <+: summaries ∧ (∀ e l, source e = some l → l <+: summaries) ∧
      (HeaderValidator.validate n.H n.net n.trusted cache source (n.lib.hdr h) p).1 = .accept := by
    rintro ⟨cache, source, h1, h2, h3⟩
    refine ⟨cache, source, ?_, hs source h1, h3⟩
    rcases h2 with rfl | ⟨f, hf, e, he⟩
    · exact List.nil_prefix
    · exact hs f hf e cache he
  rcases C91_gives n hq es s hl ho _ _ hc hg with ⟨_, hgen⟩ | h1
  · cases key with
    | headerByHash k =>
      obtain ⟨h', p', h1, _, h3⟩ := hgen
      rw [hd] at h1
      cases h1
      exact hcase h3
    | headerByNumber k =>
      obtain ⟨h', p', h1, _, h3⟩ := hgen
      rw [hd] at h1
      cases h1
      exact hcase h3
    | blockBody k =>
      obtain ⟨_, _, h1, _⟩ := hgen
      rw [hd] at h1
      cases h1
    | blockReceipts k =>
      obtain ⟨_, _, h1, _⟩ := hgen
      rw [hd] at h1
      cases h1
    | ephemeralFind _ _ => exact hgen.elim
    | ephemeralOffer _ => exact hgen.elim
  · exact absurd h1 hop

/-- Let `hd` and `true` be the header and the body of the block with hash `k`. A body that the node gives for `k` has the
transactions and the uncles of that block, and its withdrawals or none.
Missing: an operator who puts in a wrong header, see `C91_operator_violated`. -/
theorem C91_body_partial (hf : n.lib.Faithful) (hq : Store.Sql n.db) (es : List Ev) (s : HistoryNode.State) (hl : Lives n es s)
    (ho : HonestOperator n es) (k : Id) (bs : Bytes) (hc : NoIdCollision n (.blockBody k :: keys es))
    (hg : Gives n s (.blockBody k) bs) (hop : (.blockBody k, bs) ∉ operated es) (hd : Hd) (true : Body Hd Tx Wd)
    (hk : n.lib.keccak (n.lib.header.enc hd) = k) (hcommit : CommitsBody n.lib hd true) :
    ∃ b, Value.decode n.lib n.net (.blockBody k) bs = some (.body b) ∧
      ((b.transactions = true.transactions ∧ b.ommers = true.ommers ∧
          (b.withdrawals = true.withdrawals ∨ b.withdrawals = none)) ∨
        (∃ h, HeaderOf n es k h ∧ HashCollision n.lib (n.lib.header.enc h) (n.lib.header.enc hd)) ∨
        HashCollision n.lib (n.lib.ommers.enc b.ommers) (n.lib.ommers.enc true.ommers) ∨
        RootCollision n.lib (b.transactions.map n.lib.tx.enc) (true.transactions.map n.lib.tx.enc) ∨
        ∃ ws ws', b.withdrawals = some ws ∧ true.withdrawals = some ws' ∧
          RootCollision n.lib (ws.map n.lib.withdrawal.enc) (ws'.map n.lib.withdrawal.enc)) := by
  rcases C91_gives n hq es s hl ho _ _ hc hg with ⟨_, b, h, h1, h2, h4, h5, h6⟩ | h1
  · refine ⟨b, h1, ?_⟩
    by_cases he : n.lib.header.enc h = n.lib.header.enc hd
    · obtain rfl := enc_inj hf.header he
      by_cases hom : n.lib.ommers.enc b.ommers = n.lib.ommers.enc true.ommers
      · by_cases ht : b.transactions.map n.lib.tx.enc = true.transactions.map n.lib.tx.enc
        · cases hw : b.withdrawals with
          | none => exact .inl ⟨encs_inj hf.tx ht, enc_inj hf.ommers hom, .inr rfl⟩
          | some ws =>
            have h7 := h6 ws hw
            rw [hcommit.withdrawals] at h7
            obtain ⟨ws', h8, h9⟩ := Option.map_eq_some_iff.mp h7
            by_cases hwe : ws.map n.lib.withdrawal.enc = ws'.map n.lib.withdrawal.enc
            · refine .inl ⟨encs_inj hf.tx ht, enc_inj hf.ommers hom, .inl ?_⟩
              rw [h8, encs_inj hf.withdrawal hwe]
            · exact .inr (.inr (.inr (.inr ⟨ws, ws', rfl, h8, hwe, h9.symm⟩)))
        · exact .inr (.inr (.inr (.inl ⟨ht, h5.symm.trans hcommit.transactions⟩)))
      · exact .inr (.inr (.inl ⟨hom, h4.symm.trans hcommit.ommers⟩))
    · exact .inr (.inl ⟨h, h2, he, h2.1.trans hk.symm⟩)
  · exact absurd h1 hop

/-- Receipts that the node gives for a hash are those of the block with that hash. -/
theorem C91_receipts (hf : n.lib.Faithful) (hq : Store.Sql n.db) (es : List Ev) (s : HistoryNode.State) (hl : Lives n es s)
    (ho : HonestOperator n es) (k : Id) (bs : Bytes) (hc : NoIdCollision n (.blockReceipts k :: keys es))
    (hg : Gives n s (.blockReceipts k) bs) (hop : (.blockReceipts k, bs) ∉ operated es) (hd : Hd) (true : List Rc)
    (hk : n.lib.keccak (n.lib.header.enc hd) = k) (hcommit : CommitsReceipts n.lib hd true) :
    ∃ rs, Value.decode n.lib n.net (.blockReceipts k) bs = some (.receipts rs) ∧
      (rs = true ∨
        (∃ h, HeaderOf n es k h ∧ HashCollision n.lib (n.lib.header.enc h) (n.lib.header.enc hd)) ∨
        RootCollision n.lib (rs.map n.lib.receipt.enc) (true.map n.lib.receipt.enc)) := by
  rcases C91_gives n hq es s hl ho _ _ hc hg with ⟨_, rs, h, h1, h2, h4⟩ | h1
  · refine ⟨rs, h1, ?_⟩
    by_cases he : n.lib.header.enc h = n.lib.header.enc hd
    · obtain rfl := enc_inj hf.header he
      by_cases hr : rs.map n.lib.receipt.enc = true.map n.lib.receipt.enc
      · exact .inl (encs_inj hf.receipt hr)
      · exact .inr (.inr ⟨hr, h4.symm.trans hcommit⟩)
    · exact .inr (.inl ⟨h, h2, he, h2.1.trans hk.symm⟩)
  · exact absurd h1 hop

/-- Once the header of a block is stored, the body and the receipts of that block are taken when a peer sends them. -/
theorem C91_accepts (hf : n.lib.Faithful) (s : HistoryNode.State) (hd : Hd) (hb : Bytes) (p : HeaderProof)
    (hget : get n s.store (.headerByHash (n.lib.keccak (n.lib.header.enc hd))) = some hb)
    (hdec : Value.decode n.lib n.net (.headerByHash (n.lib.keccak (n.lib.header.enc hd))) hb = some (.header hd p))
    (source : Nat → Option (List Summary)) :
    (∀ (b : Body Hd Tx Wd) (bs : Bytes), CommitsBody n.lib hd b → (b.withdrawals ≠ none → b.ommers = []) →
      (Value.body b : Value Hd Tx Rc Wd).encode n.lib = some bs → bs.length < 2 ^ 32 →
      ∃ s', run n s [.headerStored (n.lib.keccak (n.lib.header.enc hd)),
          .arrived (.blockBody (n.lib.keccak (n.lib.header.enc hd))) bs ⟨source, fun _ => some hb⟩] = .ok s' ∧
        (.blockBody (n.lib.keccak (n.lib.header.enc hd)), bs) ∈ s'.held) ∧
    ∀ (rs : List Rc) (bs : Bytes), CommitsReceipts n.lib hd rs → rs.length ≤ 16384 →
      (Value.receipts rs : Value Hd Tx Rc Wd).encode n.lib = some bs → bs.length < 2 ^ 32 →
      ∃ s', run n s [.headerStored (n.lib.keccak (n.lib.header.enc hd)),
          .arrived (.blockReceipts (n.lib.keccak (n.lib.header.enc hd))) bs ⟨source, fun _ => some hb⟩] = .ok s' ∧
        (.blockReceipts (n.lib.keccak (n.lib.header.enc hd)), bs) ∈ s'.held := by
  have hans : ∀ s1 : HistoryNode.State, (n.lib.keccak (n.lib.header.enc hd), hb) ∈ s1.answered →
      AnswersHeader (env n s1 ⟨source, fun _ => some hb⟩) hd := by
    intro s1 h
    refine ⟨hb, p, ?_, hdec⟩
    simp [env, Option.filter, h]
  constructor
  · intro b bs hc hom he hlen
    have h := C58_honest_body (env n { s with answered := s.answered ++ [(n.lib.keccak (n.lib.header.enc hd), hb)] }
      ⟨source, fun _ => some hb⟩) s.cache hf hd b hc hom (hans _ (by simp)) he hlen
    refine ⟨_, by simp only [run, HistoryNode.step, hget]; rfl, ?_⟩
    simp only
    split
    · simp
    · next hne => exact absurd h hne
  · intro rs bs hc hn he hlen
    have h := C58_honest_receipts (env n { s with answered := s.answered ++ [(n.lib.keccak (n.lib.header.enc hd), hb)] }
      ⟨source, fun _ => some hb⟩) s.cache hf hd rs hc hn (hans _ (by simp)) he hlen
    refine ⟨_, by simp only [run, HistoryNode.step, hget]; rfl, ?_⟩
    simp only
    split
    · simp
    · next hne => exact absurd h hne

/-- Which offered content the node wants: ephemeral headers that it has not stored, and of everything else what is within its
radius and not stored. -/
theorem C91_wants (st : Store.Config × Store.Store) (key : Legacy) :
    (wants n st key = some .notWithinRadius ↔ (¬ ∃ h a, key = .ephemeralFind h a) ∧ (¬ ∃ h, key = .ephemeralOffer h) ∧
      st.2.radius < Verif.xorDistance st.1.node (n.db.idOf key.toBytes)) ∧
    (wants n st key = some .alreadyStored ↔ wants n st key ≠ some .notWithinRadius ∧ ∃ v, get n st key = some v) ∧
    (wants n st key = some .store ↔ wants n st key ≠ some .notWithinRadius ∧ get n st key = none) := by
  have ha : key.affectedByRadius = true ↔ (¬ ∃ h a, key = .ephemeralFind h a) ∧ ¬ ∃ h, key = .ephemeralOffer h := by
    cases key <;> simp [Legacy.affectedByRadius]
  have hg : Store.hasContent st.2 (n.db.idOf key.toBytes) = true ↔ ∃ v, get n st key = some v := by
    unfold Store.hasContent HistoryNode.get Store.lookupValue
    cases Store.lookup st.2.rows (n.db.idOf key.toBytes) <;> simp
  have hg' : get n st key = none ↔ ¬ ∃ v, get n st key = some v := by
    cases get n st key <;> simp
  have assoc : ∀ a b c : Prop, a ∧ b ∧ c ↔ (a ∧ b) ∧ c := fun _ _ _ => and_assoc.symm
  rw [hg', ← hg, assoc (¬ ∃ h a, key = .ephemeralFind h a), ← ha]
  unfold wants Store.distance
  dsimp only
  grind

/-! ## Transfers and lookups are runs of this node -/

/-- A task for content that peers offered (C53), whose validator accepts only what the validator of this node accepted, does
to the store what some tasks of this node do, so the theorems above hold of it. -/
theorem C91_transfer {P : Type} [DecidableEq P] (s : HistoryNode.State) (sps : Legacy → Bytes → List Store.Speed)
    (task : Offer.TaskEnv (Store.Config × Store.Store) Legacy P)
    (hops : task.ops = ⟨wants n, fun st k v => put n (sps k v) st k v⟩)
    (hvalid : ∀ k v, task.valid k v = true → (k, v) ∈ s.held)
    (t : Offer.TaskState (Store.Config × Store.Store) Legacy P) (ht : t.store = s.store) (accepted : List Legacy)
    (data : Option Bytes) :
    ∃ es, (∀ e ∈ es, ∃ i sps, e = .keep i sps) ∧
      run n s es = .ok { s with store := (Offer.inboundTask task t accepted data).store } := by
  refine C53_only_validated task t accepted data
    (fun st => ∃ es, (∀ e ∈ es, ∃ i sps, e = .keep i sps) ∧ run n s es = .ok { s with store := st }) ?_ ?_
  · rintro st k v st' dropped ⟨es, h1, h2⟩ ⟨h3, _⟩ _ h4
    obtain ⟨i, hi⟩ := List.mem_iff_getElem?.mp (hvalid k v h3)
    rw [hops] at h4
    simp only [put] at h4
    split at h4
    · next s' drop hins =>
      refine ⟨es ++ [.keep i (sps k v)], ?_, ?_⟩
      · intro e he
        rcases List.mem_append.mp he with he | he
        · exact h1 e he
        · exact ⟨i, sps k v, List.mem_singleton.mp he⟩
      · refine (run_snoc _ _ _ _).mpr ⟨_, h2, ?_⟩
        simp only [HistoryNode.step, hi, Store.step, hins]
        cases h4
        rfl
    · cases h4
  · exact ⟨[], fun _ h => (nomatch h), by rw [ht]; rfl⟩

/-- A task of a lookup saw the node like this, some time during these events. -/
def HistoryNodes.SawNode (es : List Ev) (key : Legacy) (see : Lookup.Seen) : Prop :=
  (∀ v, see.stored = some v → ∃ pre post s, es = pre ++ post ∧ Lives n pre s ∧ get n s.store key = some v) ∧
  ∀ v, see.verdict v ≠ .invalid → ∃ pre post s, es = pre ++ post ∧ Lives n pre s ∧ (key, v) ∈ s.held

/-- What a lookup (C82) returns to the operator, or as a header to the validator, is such content too. -/
theorem C91_lookup (hq : Store.Sql n.db) (es : List Ev) (ho : HonestOperator n es) (key : Legacy)
    (hc : NoIdCollision n (key :: keys es)) (c : Lookup.Ctx) (isTrace : Bool) (time : Nat) (peers : List Lookup.Enr)
    (s0 : Lookup.State) (h0 : Lookup.start c none isTrace time peers = .inr s0) (evs : List Lookup.Ev)
    (hs : Lookups.Sane evs) (s : Lookup.State) (h : Lookups.History) (hr : Lookup.run c s0 evs = some (s, h))
    (hsee : ∀ x ∈ h, ∀ i fetch see, x.1 = .task i fetch see → HistoryNodes.SawNode n es key see)
    (e : Lookup.Ev) (he : Lookups.Sane [e]) (s' : Lookup.State) (o : List Lookup.Out)
    (hstep : Lookup.step c s e = some (s', o)) (content : Bytes) (utp : Bool) (trace : Option Lookup.Trace)
    (ha : .answer (.found content utp trace) ∈ o) :
    ((key, content) ∈ received es ∧ Genuine n es key content) ∨ (key, content) ∈ operated es := by
  have hold : ∀ pre post s1, es = pre ++ post → Lives n pre s1 → Gives n s1 key content → Good n es key content := by
    rintro pre post s1 rfl hl hg
    have := C91_gives n hq pre s1 hl ho.left key content (hc.mono fun a ha => by
      rcases List.mem_cons.mp ha with rfl | ha
      · exact List.mem_cons_self ..
      · exact List.mem_cons_of_mem _ (keys_append ha)) hg
    exact Good.mono this post
  obtain ⟨sender, ⟨sent, see, ⟨x, hx, i, fetch, hev, _⟩, h2⟩, _⟩ :=
    C82_found c isTrace time peers s0 h0 evs hs s h hr e he s' o hstep content utp trace ha
  obtain ⟨h3, h4⟩ := hsee x hx i fetch see hev
  rcases h2 with h2 | ⟨_, rfl, h2⟩
  · obtain ⟨pre, post, s1, h5, h6, h7⟩ := h3 content h2
    exact hold pre post s1 h5 h6 (.inl h7)
  · obtain ⟨pre, post, s1, h5, h6, h7⟩ := h4 _ h2
    exact hold pre post s1 h5 h6 (.inr h7)

end Verif.Props

/-! ## A concrete case, and a header under a wrong hash -/

namespace Verif.HistoryNodeExample
open Verif Verif.ContentKey Verif.HistoryValue Verif.HistoryNode Verif.Props Verif.Props.HistoryNodes
open Verif.HeaderValidator (HeaderProof)
open Verif.HistoryExample (lib net lib_faithful)

/-- The id of a key is the number written in it, with the selector at the end. -/
def idOf : Bytes → Id
  | [] => 0
  | sel :: rest => BitVec.ofNat 256 (fromBe rest * 8 + sel.toNat)

/-- All Merkle roots are 0, so that every proof for a block before the merge is accepted. -/
def node : Node UInt8 UInt8 UInt8 UInt8 :=
  ⟨lib, fun _ _ => 0, net, ⟨[0], []⟩, { StoreExample.env with idOf := idOf }⟩

theorem sql : Store.Sql node.db := ⟨StoreExample.sql.1, StoreExample.sql.2⟩

def cfg : Store.Config := ⟨0, 100000, 2 ^ 256 - 1, 0⟩
def store : Store.Store := ⟨[], 2 ^ 256 - 1, 100, 0, 0⟩
theorem created : Store.create node.db cfg [] [] = .ok store := by decide +kernel

/-- The header 5 with a proof. -/
def header : Bytes := encodeHeaderWithProof lib 5 (.hashes (Vector.replicate 15 0))
/-- The body of block 5: two transactions. -/
def body : Bytes := [8, 0, 0, 0, 18, 0, 0, 0, 8, 0, 0, 0, 9, 0, 0, 0, 2, 3, 0]
def moment : Moment := ⟨fun _ => none, fun _ => some header⟩

/-- A peer sends the header 5, whose hash is 1, under its hash; it is stored, and found when the validator asks for it; so the
body is accepted and stored; the node is killed while it stores the body once more. Two contents that do not belong there are
refused: the header under another hash, and the header as a body. -/
def day : List Ev :=
  [.arrived (.headerByHash 1) header moment, .keep 0 [], .headerStored 1, .arrived (.blockBody 1) body moment, .keep 1 [],
    .arrived (.headerByHash 2) header moment, .arrived (.blockBody 1) header moment, .keepKilled 1 [] (some 0) [] cfg []]

theorem day_ends : (run node (fresh (cfg, store)) day).map
    (fun s => decide (get node s.store (.headerByHash 1) = some header ∧ get node s.store (.blockBody 1) = some body ∧
      s.held = [] ∧ s.answered = [])) = .ok true := by decide +kernel

/-- An empty node with radius 0 wants an ephemeral header whatever its distance is, but not every other content. -/
example : wants node (cfg, { store with radius := 0 }) (.blockBody 1) = some .notWithinRadius ∧
    wants node (cfg, { store with radius := 0 }) (.ephemeralOffer 1) = some .store ∧
    wants node (cfg, store) (.blockBody 1) = some .store := by decide +kernel

theorem day_runs : ∃ s, Lives node day s ∧ Gives node s (.headerByHash 1) header ∧ Gives node s (.blockBody 1) body := by
  have h := day_ends
  cases hr : run node (fresh (cfg, store)) day with
  | error e => rw [hr] at h; cases h
  | ok s =>
    rw [hr] at h
    injection h with h
    obtain ⟨h1, h2, _⟩ := of_decide_eq_true h
    exact ⟨s, ⟨cfg, [], store, created, hr⟩, .inl h1, .inl h2⟩

example : HonestOperator node day := by
  intro k bs h
  have : operated day = [] := by decide +kernel
  rw [this] at h
  cases h
example : NoIdCollision node (.blockBody 1 :: keys day) := by unfold NoIdCollision; decide +kernel
example : HistoryValidator.CommitsBody lib 5 ⟨[2, 3], [], none⟩ := ⟨by rfl, by rfl, by rfl⟩

/-- What a task of a lookup for the header sees when it validates it. -/
example : SawNode node day (.headerByHash 1)
    { stored := none, verdict := fun b => if b = header then .canonicallyValid else .invalid, wanted := true, dropped := none,
      table := fun _ => none, permits := [] } := by
  refine ⟨fun v h => (nomatch h), fun v h => ?_⟩
  have hv : v = header := by
    by_cases hv : v = header
    · exact hv
    · simp only [if_neg hv, ne_eq, not_true_eq_false] at h
  subst hv
  have h1 : (run node (fresh (cfg, store)) (day.take 1)).map (fun s => decide ((.headerByHash 1, header) ∈ s.held)) = .ok true := by
    decide +kernel
  cases hr : run node (fresh (cfg, store)) (day.take 1) with
  | error e => rw [hr] at h1; cases h1
  | ok s =>
    rw [hr] at h1
    injection h1 with h1
    exact ⟨day.take 1, day.drop 1, s, (List.take_append_drop ..).symm, ⟨cfg, [], store, created, hr⟩, of_decide_eq_true h1⟩

/-- With less room, the body has to make place for the header. -/
example : ((run node (fresh ({ cfg with capacity := 560 }, store)) [.arrived (.headerByHash 1) header moment, .headerFound 0,
      .arrived (.blockBody 1) body moment, .keep 1 []]).map fun s =>
    decide ((put node [] s.store (.headerByHash 1) header).map Prod.snd = some [(.blockBody 1, body)])) = .ok true := by
  decide +kernel

/-- The operator puts the header 5 under the hash 2, which no header has. -/
def trick : List Ev :=
  [.operator (.headerByHash 2) header [], .headerStored 2, .arrived (.blockBody 2) body moment, .keep 0 []]

theorem trick_ends : (run node (fresh (cfg, store)) trick).map (fun s => get node s.store (.blockBody 2)) =
      .ok (some body) := by decide +kernel

end Verif.HistoryNodeExample

namespace Verif.Props
open Verif Verif.ContentKey Verif.HistoryValue Verif.HistoryNode Verif.Props.HistoryNodes

open HistoryNodeExample in
/-- The node trusts its operator with more than that: if the operator puts a header under a wrong hash, the node takes a body
from a peer for that hash, stores it and gives it to others, although there is no header with that hash. -/
theorem C91_operator_violated : ∃ (es : List Ev) (s : HistoryNode.State) (k : Id) (bs : Bytes), Lives node es s ∧
    NoIdCollision node (.blockBody k :: keys es) ∧ Gives node s (.blockBody k) bs ∧ (.blockBody k, bs) ∉ operated es ∧
    (∀ h, node.lib.keccak (node.lib.header.enc h) ≠ k) ∧ ¬ Genuine node es (.blockBody k) bs := by
  have h := trick_ends
  cases hr : HistoryNode.run node (fresh (cfg, store)) trick with
  | error e => rw [hr] at h; cases h
  | ok s =>
    rw [hr] at h
    injection h with h
    have hno : ∀ x, node.lib.keccak (node.lib.header.enc x) ≠ (2 : Id) := by
      intro x
      show (BitVec.ofNat 256 1 : Id) ≠ 2
      decide
    refine ⟨trick, s, 2, body, ⟨cfg, [], store, created, hr⟩, by unfold NoIdCollision; decide +kernel, .inl h, by decide +kernel, hno, ?_⟩
    rintro ⟨_, x, _, ⟨h1, _⟩, _⟩
    exact hno x h1

end Verif.Props
