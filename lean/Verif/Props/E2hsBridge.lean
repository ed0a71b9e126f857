import Verif.Lemmas.E2hsBridgeParts
import Verif.Props.Archive
import Verif.Props.E2hsGen
import Verif.Props.HistoryValidator

/-! # C78: the E2HS bridge -/

namespace Verif.Props
open Verif Verif.E2hsBridge Verif.Props.FileBridge
open Verif.HeaderValidator (HeaderProof)
open Verif.HistoryValue (Body)
open Verif.E2store (Res Entry Short)
open Verif.Archive (e2hsFormat readTuples E2hsCodecs E2hsTuple)
open Verif.Census (OfferTrace)

variable {Hd Tx Rc Wd P : Type}

/-! ## Helpers -/

theorem FileBridge.started_eq (s : State Hd Tx Rc Wd P) (e : Nat) : started s e = st s.blocks e := rfl

/-- What the invariant says about one started block. -/
theorem FileBridge.block_of {env : Env Hd Tx Rc Wd} {all : List Part} {s : State Hd Tx Rc Wd P} (h : Inv env all s)
    {b : BlockTask Hd Tx Rc Wd P} (hb : b ∈ s.blocks) :
    ∃ p ∈ all, p.1 = b.epoch ∧ ∃ entries count, Reading env p entries count (started s b.epoch) ∧
      b.tuple ∈ started s b.epoch := by
  obtain ⟨p, hp, he⟩ := h.only b hb
  have hmem : b.tuple ∈ started s b.epoch := List.mem_filterMap.mpr ⟨b, hb, by simp⟩
  refine ⟨p, hp, he, ?_⟩
  rcases h.parts p hp with h0 | ⟨entries, count, h1⟩
  · rw [he, ← FileBridge.started_eq] at h0
    rw [h0] at hmem; cases hmem
  · rw [he, ← FileBridge.started_eq] at h1
    exact ⟨entries, count, h1, hmem⟩

theorem FileBridge.blockAt_of {env : Env Hd Tx Rc Wd} {e : Nat} {bytes : Bytes} {entries0 : List Entry} {m n : Nat}
    {ts : List (Tuple Hd Tx Rc Wd)} (h1 : env.download e = some bytes) (h2 : openFile bytes = .ok (entries0, m))
    (h3 : readTuples (e2hsFormat env.codecs) n entries0 = .ok ts) (i : Nat) (t : Tuple Hd Tx Rc Wd)
    (hi : ts[i]? = some t) : BlockAt env e i t := by
  obtain ⟨es, hes, rfl⟩ := openFile_ok h2
  obtain ⟨-, hr⟩ := readTuples_at _ _ _ h3 i t hi
  rw [List.drop_drop] at hr
  exact ⟨bytes, es, h1, hes, hr⟩

theorem FileBridge.contents_prefix {env : Env Hd Tx Rc Wd} {clock : Nat} {b : BlockTask Hd Tx Rc Wd P}
    (h : BlockInv env clock b) : b.contents.map (fun c => (c.key, some c.value)) <+: contentsOf env b.tuple := by
  obtain ⟨-, h⟩ := h
  revert h
  cases b.phase with
  | start => intro h; simp only at h; rw [h]; exact List.nil_prefix
  | header =>
    rintro ⟨c0, h1, h2⟩
    rw [h1]; simp only [List.map_cons, List.map_nil]; rw [h2]
    exact List.take_prefix _ _
  | delay t =>
    rintro ⟨c0, c1, h1, h2, -⟩
    rw [h1]; simp only [List.map_cons, List.map_nil]; rw [h2]
    exact List.take_prefix _ _
  | rest => rintro ⟨t, c0, c1, c2, c3, h1, h2, -⟩; rw [h2]; exact List.prefix_refl _
  | done => rintro ⟨t, c0, c1, c2, c3, h1, h2, -⟩; rw [h2]; exact List.prefix_refl _

theorem FileBridge.served_iff {clock : Nat} {c : Content P} (h : ContentInv clock c) : c.done = true ↔ Served c := by
  rw [done_iff]
  constructor
  · rintro ⟨h1, h2, h3⟩
    refine ⟨h1, ?_, h3⟩
    have := h.peers
    rw [h2, List.append_nil] at this
    exact this
  · rintro ⟨h1, h2, h3⟩
    refine ⟨h1, ?_, h3⟩
    have := h.peers
    rw [h2] at this
    exact List.append_right_eq_self.mp this

theorem FileBridge.block_served {env : Env Hd Tx Rc Wd} {clock : Nat} {b : BlockTask Hd Tx Rc Wd P}
    (h : BlockInv env clock b) (hd : b.phase = .done) : BlockServed env b := by
  obtain ⟨h0, h⟩ := h
  rw [hd] at h
  obtain ⟨t, c0, c1, c2, c3, h1, h2, -, -, -, -, -, h3⟩ := h
  exact ⟨h2, fun c hc => (FileBridge.served_iff (h0 c hc)).mp (h3 c hc)⟩

theorem FileBridge.two_epochs {env : Env Hd Tx Rc Wd} {all : List Part} {s : State Hd Tx Rc Wd P} (h : Inv env all s) :
    MainInv env all (st s.blocks) (Done s.blocks) .panicked := by
  have hm := h.main
  cases hs : s.main with
  | loop todo latest => rw [hs] at hm; exact panic_loop hm
  | reading part entries n todo latest => rw [hs] at hm; exact panic_reading hm
  | waitPrevious a b todo =>
    rw [hs] at hm
    obtain ⟨past, part, h1, h2, h3, h4, h5, h6, h7⟩ := hm
    refine ⟨a, part.1, ?_⟩
    intro p hp ha hb
    rw [← h1] at hp
    rcases List.mem_append.mp hp with hp | hp
    · rcases last_or_dropLast hp with hl | hl
      · rw [h3] at hl
        exact absurd (Option.some.inj hl).symm ha
      · exact h7 p hl
    · rcases List.mem_cons.mp hp with rfl | hp
      · exact absurd rfl hb
      · exact done_of_none (h6 p hp)
  | waitLast e =>
    rw [hs] at hm
    obtain ⟨h1, h2, h3⟩ := hm
    refine ⟨e, e, ?_⟩
    intro p hp ha _
    rcases last_or_dropLast hp with hl | hl
    · rw [h1] at hl
      exact absurd (Option.some.inj hl).symm ha
    · exact h3 p hl
  | finished => rw [hs] at hm; exact ⟨0, 0, fun p hp _ _ => hm.2 p hp⟩
  | panicked => rw [hs] at hm; exact hm

theorem FileBridge.inFlight_length (s : State Hd Tx Rc Wd P) :
    (inFlight s).length = (s.blocks.map BlockTask.inFlight).sum := by
  unfold inFlight offers
  rw [List.filter_flatMap, List.length_flatMap]
  congr 1
  apply List.map_congr_left
  intro b _
  rw [List.filter_flatMap, List.length_flatMap]
  rfl

theorem FileBridge.active_length (s : State Hd Tx Rc Wd P) :
    (active s).length = (s.blocks.map BlockTask.holds).sum := by
  unfold active
  rw [filter_length_eq_sum]
  congr 1
  apply List.map_congr_left
  intro b _
  unfold BlockTask.holds
  by_cases h : b.phase = .done <;> simp [h]

theorem FileBridge.results_eq (s : State Hd Tx Rc Wd P) : results s = s.blocks.flatMap BlockTask.results := by
  unfold results offers
  rw [List.filterMap_flatMap]
  congr 1
  funext b
  rw [List.filterMap_flatMap]
  rfl

/-- The state when the launcher has read all files. -/
theorem FileBridge.finished_of {env : Env Hd Tx Rc Wd} {all : List Part} {s : State Hd Tx Rc Wd P} (h : Inv env all s)
    (hm : s.main = .finished) {p : Part} (hp : p ∈ all) :
    (∃ ts, File env p.1 ts ∧ started s p.1 = ts.filter (wanted env p)) ∧ Done s.blocks p.1 := by
  have hi := h.main
  rw [hm] at hi
  obtain ⟨entries, hr⟩ := hi.1 p hp
  exact ⟨full_iff_file hr, hi.2 p hp⟩

theorem FileBridge.file_unique {env : Env Hd Tx Rc Wd} {e : Nat} {ts us : List (Tuple Hd Tx Rc Wd)}
    (h : File env e ts) (h' : File env e us) : ts = us := by
  obtain ⟨b, h1, h2⟩ := h
  obtain ⟨b', h1', h2'⟩ := h'
  rw [h1] at h1'
  simp only [Option.some.injEq] at h1'
  subst h1'
  rw [h2] at h2'
  exact Res.ok.inj h2'

/-! ## The theorems -/

section
/-- The answer to an offer under way is its result, and is recorded for its peer; nothing else is recorded. -/
theorem C78_replies (env : Env Hd Tx Rc Wd) (s : State Hd Tx Rc Wd P) :
    (∀ i j k r b c peer sent, s.blocks[i]? = some b → b.contents[j]? = some c → c.offers[k]? = some ⟨peer, sent, none⟩ →
      (step env s (.reply i j k r)).recorded = (peer, told r) :: s.recorded ∧
      ∃ b' c', (step env s (.reply i j k r)).blocks[i]? = some b' ∧ b'.contents[j]? = some c' ∧
        c'.offers[k]? = some ⟨peer, sent, some (told r, s.clock)⟩) ∧
    ∀ ev : Event P, (step env s ev).recorded = s.recorded ∨
      ∃ i j k r b c peer sent, ev = .reply i j k r ∧ s.blocks[i]? = some b ∧ b.contents[j]? = some c ∧
        c.offers[k]? = some ⟨peer, sent, none⟩ := by
  have ht : ∀ r : Reply, r.toTrace = told r := by intro r; cases r <;> rfl
  constructor
  · intro i j k r b c peer sent hb hc ho
    have hi := (List.getElem?_eq_some_iff.mp hb).1
    have hj := (List.getElem?_eq_some_iff.mp hc).1
    have hk := (List.getElem?_eq_some_iff.mp ho).1
    simp only [step, hb, hc, endOffer, ho, ht]
    refine ⟨trivial, _, _, List.getElem?_set_self hi, List.getElem?_set_self hj, List.getElem?_set_self hk⟩
  · intro ev
    cases ev with
    | main =>
      left
      simp only [step]
      unfold stepMain
      repeat' split
      all_goals rfl
    | block i => left; simp only [step]; split <;> rfl
    | content i j census => left; simp only [step]; split <;> (try split) <;> rfl
    | tick d => left; rfl
    | reply i j k r =>
      simp only [step]
      split
      · exact .inl rfl
      · rename_i b hb
        split
        · exact .inl rfl
        · rename_i c hc
          split
          · exact .inl rfl
          · rename_i c' peer tr he
            obtain ⟨sent, ho, -⟩ := endOffer_some he
            exact .inr ⟨i, j, k, r, b, c, peer, sent, rfl, hb, hc, ho⟩

variable (env : Env Hd Tx Rc Wd) (range : BlockRange) (files : List Nat) (order : List Part → List Part)
  (hord : ∀ l, (order l).Perm l) (stop : Nat) (hend : EndsAt range files stop) (hstop : stop + 8192 < 2 ^ 64)
include hord hend hstop

/-- Only blocks of files of the range are offered, only after their checks, and only their contents to the peers that the
census selected. A block with a number of its file's epoch is in the range. -/
theorem C78_offered (s : State Hd Tx Rc Wd P) (hr : Reachable env range files order s) :
    ∀ b ∈ s.blocks,
      (range.start / 8192 ≤ b.epoch ∧ b.epoch ≤ stop / 8192) ∧
      (∃ i, BlockAt env b.epoch i b.tuple) ∧
      Checked env b.tuple ∧
      ((number env b.tuple).toNat / 8192 = b.epoch →
        range.start ≤ (number env b.tuple).toNat ∧ (number env b.tuple).toNat ≤ stop) ∧
      ∀ c ∈ b.contents, (c.key, some c.value) ∈ contentsOf env b.tuple ∧ ∀ o ∈ c.offers, o.peer ∈ selected c := by
  obtain ⟨all, hall, h⟩ := reach hord hend hstop hr
  intro b hb
  obtain ⟨p, hp, he, entries, count, ⟨bytes, entries0, ts, h1, h2, h3, h4, h5⟩, hmem⟩ := FileBridge.block_of h hb
  obtain ⟨ha, hc, -⟩ := (hall.mem p).mp hp
  rw [h5, List.mem_filter] at hmem
  obtain ⟨hmem, hw⟩ := hmem
  unfold wanted at hw
  rw [Bool.and_eq_true, beq_iff_eq] at hw
  refine ⟨by rw [← he]; exact ⟨ha, hc⟩, ?_, (validateTuple_iff env _).mp hw.2, ?_, ?_⟩
  · obtain ⟨i, hi⟩ := List.getElem?_of_mem hmem
    exact ⟨i, he ▸ FileBridge.blockAt_of h1 h2 h4 i _ hi⟩
  · intro hn
    exact (inPart_iff hall hp env _ (hn.trans he.symm)).mp hw.1
  · intro c hcm
    refine ⟨(FileBridge.contents_prefix (h.blocks b hb)).subset (List.mem_map_of_mem hcm), ?_⟩
    intro o ho
    have := ((h.blocks b hb).1 c hcm).peers
    rw [← this]
    exact List.mem_append_left _ (List.mem_map_of_mem ho)

/-- Nothing is offered twice and the order is that of the file: the blocks that were started for an epoch are blocks of
its file in order; the contents of a block are started in the order of `contentsOf`, and each selected peer gets one offer. -/
theorem C78_once (s : State Hd Tx Rc Wd P) (hr : Reachable env range files order s) :
    (∀ e, ∃ ts, (∀ i t, ts[i]? = some t → BlockAt env e i t) ∧ (started s e).Sublist ts) ∧
    (∀ e ts, File env e ts → OwnBlocks env e ts → started s e <+: due env range.start stop ts) ∧
    ∀ b ∈ s.blocks, b.contents.map (fun c => (c.key, some c.value)) <+: contentsOf env b.tuple ∧
      ∀ c ∈ b.contents, c.offers.map (·.peer) <+: selected c := by
  obtain ⟨all, hall, h⟩ := reach hord hend hstop hr
  have hnone : ∀ e, (∃ p ∈ all, p.1 = e) ∨ started s e = [] := by
    intro e
    by_cases he : ∃ p ∈ all, p.1 = e
    · exact .inl he
    · right
      rw [FileBridge.started_eq, st, List.filterMap_eq_nil_iff]
      intro b hb
      rw [if_neg]
      intro hbe
      obtain ⟨p, hp, hpe⟩ := h.only b hb
      exact he ⟨p, hp, hpe.trans hbe⟩
  refine ⟨?_, ?_, ?_⟩
  · intro e
    rcases hnone e with ⟨p, hp, rfl⟩ | h0
    · rcases h.parts p hp with h0 | ⟨entries, count, bytes, entries0, ts, h1, h2, h3, h4, h5⟩
      · exact ⟨[], (fun i t hi => by cases hi), by rw [FileBridge.started_eq, h0]; exact List.Sublist.refl _⟩
      · exact ⟨ts, FileBridge.blockAt_of h1 h2 h4, by rw [FileBridge.started_eq, h5]; exact List.filter_sublist⟩
    · exact ⟨[], (fun i t hi => by cases hi), by rw [h0]; exact List.Sublist.refl _⟩
  · intro e ts hf hown
    rcases hnone e with ⟨p, hp, rfl⟩ | h0
    · rcases h.parts p hp with h0 | ⟨entries, count, bytes, entries0, ts', h1, h2, h3, h4, h5⟩
      · rw [FileBridge.started_eq, h0]; exact List.nil_prefix
      · obtain ⟨bytes', entries', h1', h2', h3'⟩ := file_open hf
        rw [h1] at h1'
        simp only [Option.some.injEq] at h1'
        subst h1'
        rw [h2] at h2'
        simp only [Res.ok.injEq, Prod.mk.injEq] at h2'
        obtain ⟨rfl, hlen⟩ := h2'
        have := readTuples_take _ _ _ _ _ h4 h3' (by omega)
        rw [FileBridge.started_eq, h5, ← filter_due hall hp env ts hown, this]
        exact (List.take_prefix _ _).filter _
    · rw [h0]; exact List.nil_prefix
  · intro b hb
    refine ⟨FileBridge.contents_prefix (h.blocks b hb), ?_⟩
    intro c hc
    exact ⟨c.queue, ((h.blocks b hb).1 c hc).peers⟩

/-- When the bridge has finished, it has read the files of all epochs of the range to the end, has started all their
blocks that are in the range and pass the checks, and all contents of these have been offered to every selected peer.
Missing: that it finishes although files are missing or broken, see `C78_missing_violated` and `C78_first_missing_violated`. -/
theorem C78_complete_partial (s : State Hd Tx Rc Wd P) (hr : Reachable env range files order s) (hm : s.main = .finished) :
    (∀ e, range.start / 8192 ≤ e → e ≤ stop / 8192 →
      ∃ ts, File env e ts ∧ (OwnBlocks env e ts → started s e = due env range.start stop ts)) ∧
    ∀ b ∈ s.blocks, BlockServed env b := by
  obtain ⟨all, hall, h⟩ := reach hord hend hstop hr
  constructor
  · intro e h1 h2
    have hp := (hall.mem (e, if range.start ≤ e * 8192 ∧ e * 8192 + 8191 ≤ stop then none
      else some (max range.start (e * 8192), min stop (e * 8192 + 8191)))).mpr ⟨h1, h2, rfl⟩
    obtain ⟨⟨ts, hf, hs⟩, -⟩ := FileBridge.finished_of h hm hp
    refine ⟨ts, hf, fun hown => ?_⟩
    rw [← filter_due hall hp env ts hown]
    exact hs
  · intro b hb
    obtain ⟨p, hp, he⟩ := h.only b hb
    exact FileBridge.block_served (h.blocks b hb) ((FileBridge.finished_of h hm hp).2 b hb he.symm)

/-- No more offers are under way than the limit, and no more blocks. -/
theorem C78_limits (s : State Hd Tx Rc Wd P) (hr : Reachable env range files order s) :
    (inFlight s).length ≤ env.offerLimit ∧ (active s).length ≤ env.offerLimit := by
  obtain ⟨all, hall, h⟩ := reach hord hend hstop hr
  have h1 := h.offerPermits
  have h2 := h.blockPermits
  rw [FileBridge.inFlight_length, FileBridge.active_length]
  omega

/-- Blocks of at most two epochs are under way. -/
theorem C78_epochs (s : State Hd Tx Rc Wd P) (hr : Reachable env range files order s) :
    ∃ e₁ e₂, ∀ b ∈ active s, b.epoch = e₁ ∨ b.epoch = e₂ := by
  obtain ⟨all, hall, h⟩ := reach hord hend hstop hr
  obtain ⟨x, y, hxy⟩ := FileBridge.two_epochs h
  refine ⟨x, y, ?_⟩
  intro b hb
  unfold active at hb
  rw [List.mem_filter] at hb
  obtain ⟨p, hp, he⟩ := h.only b hb.1
  by_cases h1 : b.epoch = x
  · exact .inl h1
  · by_cases h2 : b.epoch = y
    · exact .inr h2
    · have := hxy p hp (he ▸ h1) (he ▸ h2) b hb.1 he.symm
      simp [this] at hb

/-- The header under its hash comes first: before any other content of a block is offered it was offered to all its peers
and all these offers have ended, for the body and the receipts at least two seconds ago. -/
theorem C78_order (s : State Hd Tx Rc Wd P) (hr : Reachable env range files order s) :
    ∀ b ∈ s.blocks, ∀ first, b.contents[0]? = some first →
      ∀ (j : Nat) c, b.contents[j]? = some c → 1 ≤ j → Served first ∧
        ∀ o ∈ first.offers, ∀ r, o.result = some r → ∀ o' ∈ c.offers,
          r.2 ≤ o'.sent ∧ (2 ≤ j → r.2 + 2000 ≤ o'.sent) := by
  obtain ⟨all, hall, h⟩ := reach hord hend hstop hr
  intro b hb first hf j c hj h1
  have hbi := h.blocks b hb
  obtain ⟨h0, hp⟩ := hbi
  have hserved : first.done = true → Served first := (FileBridge.served_iff (h0 _ (List.mem_of_getElem? hf))).mp
  have main : ∀ t c0 c1 c2 c3, b.contents = [c0, c1, c2, c3] → EndedBy t c0 → SentFrom t c1 → SentFrom (t + 2000) c2 →
      SentFrom (t + 2000) c3 → Served first ∧
        ∀ o ∈ first.offers, ∀ r, o.result = some r → ∀ o' ∈ c.offers,
          r.2 ≤ o'.sent ∧ (2 ≤ j → r.2 + 2000 ≤ o'.sent) := by
    intro t c0 c1 c2 c3 hc e0 e1 e2 e3
    rw [hc] at hf hj
    simp only [List.getElem?_cons_zero, Option.some.injEq] at hf
    subst hf
    refine ⟨hserved e0.1, ?_⟩
    intro o ho r hor o' ho'
    have := e0.2 o ho r hor
    match j, h1 with
    | 1, _ =>
      simp only [List.getElem?_cons_succ, List.getElem?_cons_zero, Option.some.injEq] at hj
      subst hj
      have := e1 o' ho'
      omega
    | 2, _ =>
      simp only [List.getElem?_cons_succ, List.getElem?_cons_zero, Option.some.injEq] at hj
      subst hj
      have := e2 o' ho'
      omega
    | 3, _ =>
      simp only [List.getElem?_cons_succ, List.getElem?_cons_zero, Option.some.injEq] at hj
      subst hj
      have := e3 o' ho'
      omega
    | n + 4, _ => simp at hj
  revert hp
  cases b.phase with
  | start => intro hp; simp only at hp; rw [hp] at hf; cases hf
  | header =>
    rintro ⟨c0, hc, -⟩
    rw [hc] at hj
    obtain ⟨n, rfl⟩ : ∃ n, j = n + 1 := ⟨j - 1, by omega⟩
    simp at hj
  | delay t =>
    rintro ⟨c0, c1, hc, -, -, e0, e1⟩
    rw [hc] at hf hj
    simp only [List.getElem?_cons_zero, Option.some.injEq] at hf
    subst hf
    refine ⟨hserved e0.1, ?_⟩
    intro o ho r hor o' ho'
    have := e0.2 o ho r hor
    match j, h1 with
    | 1, _ =>
      simp only [List.getElem?_cons_succ, List.getElem?_cons_zero, Option.some.injEq] at hj
      subst hj
      have := e1 o' ho'
      omega
    | n + 2, _ => simp at hj
  | rest =>
    rintro ⟨t, c0, c1, c2, c3, hc, -, -, e0, e1, e2, e3⟩
    exact main t c0 c1 c2 c3 hc e0 e1 e2 e3
  | done =>
    rintro ⟨t, c0, c1, c2, c3, hc, -, -, e0, e1, e2, e3, -⟩
    exact main t c0 c1 c2 c3 hc e0 e1 e2 e3

/-- Results: each is recorded in the census once, the report of the bridge counts them, and the report of a content is
printed once, when its last offer has ended. -/
theorem C78_counts (s : State Hd Tx Rc Wd P) (hr : Reachable env range files order s) :
    s.recorded.Perm (results s) ∧
    s.report.accepted = ((results s).filter fun r => r.2 = .success .accepted).length ∧
    s.report.failed = ((results s).filter fun r => r.2 = .failed).length ∧
    s.report.accepted + s.report.declined + s.report.failed = (results s).length ∧
    ∀ b ∈ s.blocks, ∀ c ∈ b.contents,
      (Served c ∧ c.offers ≠ [] → c.reports = 1) ∧ (¬ (Served c ∧ c.offers ≠ []) → c.reports = 0) := by
  obtain ⟨all, hall, h⟩ := reach hord hend hstop hr
  have hp := h.recorded
  rw [← FileBridge.results_eq] at hp
  refine ⟨hp, ?_, ?_, ?_, ?_⟩
  · rw [h.report]; exact (hp.filter _).length_eq
  · rw [h.report]; exact (hp.filter _).length_eq
  · rw [h.report, ← hp.length_eq]
    generalize s.recorded = l
    clear hp h hall hr
    induction l with
    | nil => rfl
    | cons x l ih =>
      obtain ⟨p, tr⟩ := x
      rw [countReport_cons]
      cases tr with
      | failed => simp only [Report.update, List.length_cons]; omega
      | success code =>
        simp only [Report.update]
        split <;> simp only [List.length_cons] <;> omega
  · intro b hb c hc
    have hi := (h.blocks b hb).1 c hc
    have := hi.reports
    have hiff := FileBridge.served_iff hi
    constructor
    · rintro ⟨hs, ho⟩; rw [this, if_pos ⟨hiff.mpr hs, ho⟩]
    · intro hs; rw [this, if_neg fun hn => hs ⟨hiff.mp hn.1, hn.2⟩]

/-- The bridge is never stuck: unless it has finished or panicked, some task can go on, perhaps after some time. -/
theorem C78_never_stuck (hl : 0 < env.offerLimit) (s : State Hd Tx Rc Wd P) (hr : Reachable env range files order s)
    (h1 : s.main ≠ .finished) (h2 : s.main ≠ .panicked) :
    ∃ d ev, IsStep ev ∧ step env (step env s (.tick d)) ev ≠ step env s (.tick d) := by
  obtain ⟨all, hall, h⟩ := reach hord hend hstop hr
  exact never_stuck env all s h hl h1 h2

/-- It does not run forever: in every endless execution in which some task goes on whenever one can, the launcher ends. -/
theorem C78_ends (hl : 0 < env.offerLimit) (f : Nat → State Hd Tx Rc Wd P) (ev : Nat → Event P)
    (h0 : f 0 = launch env range files order) (hf : ∀ n, f (n + 1) = step env (f n) (ev n))
    (hfair : ∀ n, (∃ d e, IsStep e ∧ step env (step env (f n) (.tick d)) e ≠ step env (f n) (.tick d)) →
      ∃ m, n ≤ m ∧ IsStep (ev m) ∧ f (m + 1) ≠ f m) :
    ∃ n, ∀ m, n ≤ m → (f m).main = .finished ∨ (f m).main = .panicked := by
  have hr : ∀ n, Reachable env range files order (f n) := by
    intro n
    induction n with
    | zero => exact ⟨[], h0⟩
    | succ n ih =>
      obtain ⟨es, he⟩ := ih
      refine ⟨es ++ [ev n], ?_⟩
      rw [hf, he, ← run_append]; rfl
  obtain ⟨n, hn⟩ := settles env f ev hf
  refine ⟨n, fun m hm => ?_⟩
  apply Classical.byContradiction
  intro hc
  have hc1 : (f m).main ≠ .finished := fun h => hc (.inl h)
  have hc2 : (f m).main ≠ .panicked := fun h => hc (.inr h)
  obtain ⟨k, hk, hs, hne⟩ := hfair m (C78_never_stuck env range files order hord stop hend hstop hl (f m) (hr m) hc1 hc2)
  exact hne (hn k (by omega) hs)

/-- If the files of the range can be read and the check of no header aborts, the launcher does not panic, and (with a
limit above 0) the bridge can always go on to its end. -/
theorem C78_no_panic (hfiles : ∀ e, range.start / 8192 ≤ e → e ≤ stop / 8192 →
      ∃ ts, File env e ts ∧ ∀ t ∈ ts, HeaderSafe env t)
    (s : State Hd Tx Rc Wd P) (hr : Reachable env range files order s) :
    s.main ≠ .panicked ∧ (0 < env.offerLimit → ∃ es, (run env s es).main = .finished) := by
  have key : ∀ s : State Hd Tx Rc Wd P, Reachable env range files order s → s.main ≠ .panicked := by
    rintro s ⟨es, rfl⟩
    obtain ⟨all, hall, hl, hi⟩ := launch_inv env range files order hord stop hend hstop (P := P)
    have hf : ∀ p ∈ all, ∃ ts, File env p.1 ts ∧ ∀ t ∈ ts, HeaderSafe env t := by
      intro p hp
      obtain ⟨ha, hb, -⟩ := (hall.mem p).mp hp
      exact hfiles p.1 ha hb
    have hm : (launch env range files order : State Hd Tx Rc Wd P).main ≠ .panicked := by rw [hl]; simp
    generalize (launch env range files order : State Hd Tx Rc Wd P) = s0 at hi hm
    clear hl
    induction es generalizing s0 with
    | nil => exact hm
    | cons e es ih =>
      exact ih (step env s0 e) (step_inv env all hall.nodup s0 hi e) (step_no_panic env all s0 hi hf hm e)
  refine ⟨key s hr, fun hl => ?_⟩
  obtain ⟨all, hall, h⟩ := reach hord hend hstop hr
  obtain ⟨es, he | he⟩ := run_to_end env all hall.nodup hl s h
  · exact ⟨es, he⟩
  · obtain ⟨es', rfl⟩ := hr
    exact absurd he (key _ ⟨es' ++ es, run_append env _ es' es⟩)

/-- A failed selection of peers is not repeated: the bridge may finish, with every block counted as done, although not one
offer was sent. -/
theorem C78_nobody_violated (hl : 0 < env.offerLimit) (hfiles : ∀ e, range.start / 8192 ≤ e → e ≤ stop / 8192 →
      ∃ ts, File env e ts ∧ ∀ t ∈ ts, HeaderSafe env t) :
    ∃ s : State Hd Tx Rc Wd P, Reachable env range files order s ∧ s.main = .finished ∧ offers s = [] := by
  obtain ⟨all, hall, -, hi⟩ := launch_inv env range files order hord stop hend hstop (P := P)
  obtain ⟨es, hq, he⟩ := quiet_to_end env all hall.nodup hl _ hi (fun b hb => nomatch hb)
  refine ⟨_, ⟨es, rfl⟩, ?_, ?_⟩
  · rcases he with he | he
    · exact he
    · exact absurd he (C78_no_panic env range files order hord stop hend hstop hfiles _ ⟨es, rfl⟩).1
  · unfold offers
    rw [List.flatMap_eq_nil_iff]
    intro b hb
    rw [List.flatMap_eq_nil_iff]
    exact fun c hc => (hq b hb c hc).2

/-- The file of every epoch of the range must be there and readable: with one missing or broken the bridge never
finishes. -/
theorem C78_missing_violated (e : Nat) (h1 : range.start / 8192 ≤ e) (h2 : e ≤ stop / 8192)
    (hno : ∀ ts, ¬ File env e ts) (s : State Hd Tx Rc Wd P) (hr : Reachable env range files order s) :
    s.main ≠ .finished := by
  intro hm
  obtain ⟨ts, hf, -⟩ := (C78_complete_partial env range files order hord stop hend hstop s hr hm).1 e h1 h2
  exact hno ts hf

/-- From an epoch that is in the range as a whole every block that passes the checks is offered, whatever its number: a
file with blocks of another epoch makes the bridge offer blocks outside of the range. -/
theorem C78_foreign_violated (e : Nat) (h1 : range.start ≤ e * 8192) (h2 : e * 8192 + 8191 ≤ stop)
    (ts : List (Tuple Hd Tx Rc Wd)) (hf : File env e ts) (s : State Hd Tx Rc Wd P)
    (hr : Reachable env range files order s) (hm : s.main = .finished) :
    ∀ t ∈ ts, Checked env t → t ∈ started s e := by
  obtain ⟨all, hall, h⟩ := reach hord hend hstop hr
  intro t ht hc
  have hp := (hall.mem (e, none)).mpr ⟨by dsimp only; omega, by dsimp only; omega, by dsimp only; rw [if_pos ⟨h1, h2⟩]⟩
  obtain ⟨⟨us, hf', hs⟩, -⟩ := FileBridge.finished_of h hm hp
  cases FileBridge.file_unique hf hf'
  dsimp only at hs
  rw [hs, List.mem_filter]
  refine ⟨ht, ?_⟩
  unfold wanted
  rw [(validateTuple_iff env t).mpr hc]
  rfl

/-- With a limit of 0 nothing is ever offered, and if any block is due the bridge waits forever. -/
theorem C78_zero_limit_violated (hl : env.offerLimit = 0) (s : State Hd Tx Rc Wd P)
    (hr : Reachable env range files order s) :
    s.blocks = [] ∧
    ∀ e ts, range.start / 8192 ≤ e → e ≤ stop / 8192 → File env e ts → OwnBlocks env e ts →
      due env range.start stop ts ≠ [] → s.main ≠ .finished := by
  have hb : s.blocks = [] := by
    obtain ⟨es, rfl⟩ := hr
    have h0 : (launch env range files order : State Hd Tx Rc Wd P).blocks = [] ∧
        (launch env range files order : State Hd Tx Rc Wd P).blockPermits = 0 := ⟨rfl, hl⟩
    generalize (launch env range files order : State Hd Tx Rc Wd P) = s0 at h0
    induction es generalizing s0 with
    | nil => exact h0.1
    | cons ev es ih =>
      apply ih
      obtain ⟨h1, h2⟩ := h0
      cases ev with
      | tick d => exact ⟨h1, h2⟩
      | block i => simp [step, h1, h2]
      | content i j c => simp [step, h1, h2]
      | reply i j k r => simp [step, h1, h2]
      | main =>
        simp only [step]
        unfold stepMain
        split <;> (try split) <;> (try split) <;> (try split) <;> (try split) <;>
          first | exact ⟨h1, h2⟩ | (rename_i hne; exact absurd h2 hne)
  refine ⟨hb, ?_⟩
  intro e ts h1 h2 hf hown hd hm
  obtain ⟨us, hf', hs⟩ := (C78_complete_partial env range files order hord stop hend hstop s hr hm).1 e h1 h2
  cases FileBridge.file_unique hf hf'
  apply hd
  rw [← hs hown]
  simp [started, hb]

end

/-- When the first epoch in the order has no file, nothing at all is offered, although the other epochs may have files. -/
theorem C78_first_missing_violated (env : Env Hd Tx Rc Wd) (range : BlockRange) (files : List Nat)
    (order : List Part → List Part) (stop e : Nat) (bounds : Option (Nat × Nat)) (parts rest : List Part)
    (hend : EndsAt range files stop) (hparts : Epochs.blockRangeToEpochs range.start stop = some parts)
    (hfirst : order parts = (e, bounds) :: rest) (hno : env.download e = none) (s : State Hd Tx Rc Wd P)
    (hr : Reachable env range files order s) : s.blocks = [] ∧ s.main ≠ .finished := by
  obtain ⟨es, rfl⟩ := hr
  have h0 : (launch env range files order : State Hd Tx Rc Wd P).blocks = [] ∧
      ((launch env range files order : State Hd Tx Rc Wd P).main = .loop ((e, bounds) :: rest) none ∨
        (launch env range files order : State Hd Tx Rc Wd P).main = .panicked) := by
    refine ⟨rfl, .inl ?_⟩
    simp only [launch, (rangeEnd_iff range files stop).mpr hend, hparts, hfirst]
  generalize (launch env range files order : State Hd Tx Rc Wd P) = s0 at h0
  induction es generalizing s0 with
  | nil => exact ⟨h0.1, by rcases h0.2 with h | h <;> (show s0.main ≠ _) <;> rw [h] <;> simp⟩
  | cons ev es ih =>
    apply ih
    obtain ⟨h1, h2⟩ := h0
    cases ev with
    | tick d => exact ⟨h1, h2⟩
    | block i => simp [step, h1, h2]
    | content i j c => simp [step, h1, h2]
    | reply i j k r => simp [step, h1, h2]
    | main =>
      simp only [step]
      rcases h2 with h2 | h2 <;> simp [stepMain, h2, hno, h1]

/-- The proof of a header since Capella is not looked at: with any other such proof the block passes the checks as
well. -/
theorem C78_unproven_violated (env : Env Hd Tx Rc Wd) (t : Tuple Hd Tx Rc Wd) (ht : Checked env t) (proof : HeaderProof)
    (hp : (∃ q, proof = .capella q) ∨ ∃ q, proof = .deneb q) :
    Checked env { t with headerWithProof := (t.headerWithProof.1, proof) } where
  header h1 h2 := by
    rcases hp with ⟨q, rfl⟩ | ⟨q, rfl⟩
    · exact absurd rfl (h1 q)
    · exact absurd rfl (h2 q)
  transactions := ht.transactions
  ommers := ht.ommers
  withdrawals := ht.withdrawals
  receipts := ht.receipts

/-- Without an end in the command line the range ends with the last epoch of the list of files; the bridge only starts with
a list without gaps, so then every epoch of the range has a file in the list. -/
theorem C78_latest (range : BlockRange) (files : List Nat) (hn : range.stop = none)
    (hlinks : E2hsGen.checkLinks files = true) :
    EndsAt range files (files.length * 8192 - 1) ∧ ∀ e, e ≤ (files.length * 8192 - 1) / 8192 → e ∈ files := by
  obtain ⟨hne, hp⟩ := (C71_links files).mp hlinks
  have hpos : 0 < files.length := List.length_pos_iff.mpr hne
  constructor
  · right
    refine ⟨hn, files.length - 1, ?_, ?_, by omega⟩
    · rw [hp.mem_iff, List.mem_range]; omega
    · intro e he
      rw [hp.mem_iff, List.mem_range] at he
      omega
  · intro e he
    rw [hp.mem_iff, List.mem_range]
    omega

end Verif.Props

/-! ## A concrete case -/

namespace Verif.FileBridgeExample
open Verif Verif.E2hsBridge Verif.Props Verif.Props.FileBridge
open Verif.HeaderValidator (HeaderProof)
open Verif.HistoryValue (Body)
open Verif.E2store (Res Entry Short)
open Verif.Archive (e2hsFormat readTuples E2hsCodecs E2hsTuple BlockIndex Codec)
open Verif.HistoryExample (lib net treeHash trusted deneb)

/-- In these files every header has the proof `deneb`, the withdrawals of a block are its transactions, and there are no
ommers. -/
def codecs : E2hsCodecs (UInt8 × HeaderProof) (Body UInt8 UInt8 UInt8) (List UInt8) where
  headerWithProof := ⟨fun h => [h.1], fun b => b.head?.map fun x => (x, deneb)⟩
  body := ⟨fun b => b.transactions, fun b => some ⟨b, [], some b⟩⟩
  receipts := ⟨id, some⟩

/-- A block with number `n`, which passes the checks when `n` is at least 20 and `x` is `n`. -/
def block (n x : UInt8) : Tuple UInt8 UInt8 UInt8 UInt8 := ⟨(n, deneb), ⟨[x], [], some [x]⟩, [n]⟩

/-- A file with two good blocks and a bad one between them. -/
def blocks : List (Tuple UInt8 UInt8 UInt8 UInt8) := [block 25 25, block 30 3, block 40 40]
def index : BlockIndex := ⟨0, List.replicate 8192 0, 3⟩
def bytes : Bytes := E2store.fileBytes (e2hsFile codecs blocks index)

/-- There is a file for epoch 0, and the same file is served for epoch 1. -/
def env (limit : Nat) : Env UInt8 UInt8 UInt8 UInt8 where
  lib := lib
  H := treeHash
  net := net
  trusted := trusted
  codecs := codecs
  offerLimit := limit
  download e := if e ≤ 1 then some bytes else none

theorem index_length : index.indices.length = 8192 := List.length_replicate

theorem short : Short (e2hsFile codecs blocks index) := by
  intro r hr
  simp only [e2hsFile, blocks, List.flatMap_cons, List.flatMap_nil, List.mem_cons, e2hsRecords,
    List.not_mem_nil, or_false, List.cons_append, List.append_nil, List.nil_append] at hr
  rcases hr with rfl | rfl | rfl | rfl | rfl | rfl | rfl | rfl | rfl | rfl | rfl
  all_goals first | (simp [codecs, block]; done) | skip
  have : (indexRecord index).2.length = 65552 := by
    have h8 : ∀ l : List UInt64, (l.flatMap fun i => toLe 8 i.toNat).length = 8 * l.length := by
      intro l
      induction l with
      | nil => rfl
      | cons a l ih => rw [List.flatMap_cons, List.length_append, ih, List.length_cons]; simp [toLe]; omega
    rw [indexRecord]
    simp only [List.length_append, h8, index_length]
    rfl
  rw [this]; decide

theorem file (limit e : Nat) (he : e ≤ 1) : File (env limit) e blocks := by
  refine ⟨bytes, by simp [env, he], ?_⟩
  have hidx : Archive.readIndex [65552] index.toEntry = .ok index :=
    Archive.readIndex_toEntry _ _ (by rw [index_length]; decide) (by rw [index_length]; decide)
  have hread := C38_roundtrip _ short
  rw [e2hs_entries] at hread
  have htup : readTuples (e2hsFormat codecs) 3 (blocks.flatMap (e2hsFormat codecs).write ++ [index.toEntry]) = .ok blocks :=
    rfl
  have hlast : (Archive.versionEntry :: (blocks.flatMap (e2hsFormat codecs).write ++ [index.toEntry])).getLast? =
      some index.toEntry := by
    rw [← List.cons_append, List.getLast?_concat]
  unfold Archive.E2hs.iterTuples bytes
  simp only [hread, Res.bind, hlast, hidx, List.drop_succ_cons, List.drop_zero]
  exact htup

theorem good (limit : Nat) (n : UInt8) (h : n = 25 ∨ n = 40) : Checked (env limit) (block n n) := by
  refine ⟨fun _ h2 => absurd rfl (h2 _), ?_, ?_, ?_, ?_⟩ <;> rcases h with rfl | rfl
  · rfl
  · rfl
  · rfl
  · rfl
  · intro ws hws; cases hws; rfl
  · intro ws hws; cases hws; rfl
  · rfl
  · rfl

theorem bad (limit : Nat) : ¬ Checked (env limit) (block 30 3) := by
  intro h
  have : BitVec.ofNat 256 30 = BitVec.ofNat 256 3 := h.transactions
  revert this; decide

theorem num (limit : Nat) (n x : UInt8) : (number (env limit) (block n x)).toNat = n.toNat := by
  show n.toNat.toUInt64.toNat = n.toNat
  have := n.toNat_lt
  exact UInt64.toNat_ofNat_of_lt' (show _ < 2 ^ 64 by omega)

theorem own (limit : Nat) : OwnBlocks (env limit) 0 blocks := by
  intro t ht
  simp only [blocks, List.mem_cons, List.not_mem_nil, or_false] at ht
  rcases ht with rfl | rfl | rfl <;> rw [num] <;> rfl

theorem safe (limit : Nat) : ∀ t ∈ blocks, HeaderSafe (env limit) t := by
  intro t ht
  simp only [blocks, List.mem_cons, List.not_mem_nil, or_false] at ht
  rcases ht with rfl | rfl | rfl <;> exact fun _ h2 => absurd rfl (h2 _)

theorem due_all (limit : Nat) : due (env limit) 0 8191 blocks = [block 25 25, block 40 40] := by
  have h1 : ((0 ≤ (number (env limit) (block 25 25)).toNat ∧ (number (env limit) (block 25 25)).toNat ≤ 8191) ∧
      Checked (env limit) (block 25 25)) := ⟨by rw [num]; decide, good limit 25 (.inl rfl)⟩
  have h2 : ¬ ((0 ≤ (number (env limit) (block 30 3)).toNat ∧ (number (env limit) (block 30 3)).toNat ≤ 8191) ∧
      Checked (env limit) (block 30 3)) := fun h => bad limit h.2
  have h3 : ((0 ≤ (number (env limit) (block 40 40)).toNat ∧ (number (env limit) (block 40 40)).toNat ≤ 8191) ∧
      Checked (env limit) (block 40 40)) := ⟨by rw [num]; decide, good limit 40 (.inr rfl)⟩
  unfold due blocks
  rw [List.filter_cons_of_pos (by simpa using h1), List.filter_cons_of_neg (by simpa using h2),
    List.filter_cons_of_pos (by simpa using h3), List.filter_nil]

theorem due_some (limit : Nat) : due (env limit) 30 100 blocks = [block 40 40] := by
  have h1 : ¬ ((30 ≤ (number (env limit) (block 25 25)).toNat ∧ (number (env limit) (block 25 25)).toNat ≤ 100) ∧
      Checked (env limit) (block 25 25)) := fun h => absurd h.1.1 (by rw [num]; decide)
  have h2 : ¬ ((30 ≤ (number (env limit) (block 30 3)).toNat ∧ (number (env limit) (block 30 3)).toNat ≤ 100) ∧
      Checked (env limit) (block 30 3)) := fun h => bad limit h.2
  have h3 : ((30 ≤ (number (env limit) (block 40 40)).toNat ∧ (number (env limit) (block 40 40)).toNat ≤ 100) ∧
      Checked (env limit) (block 40 40)) := ⟨by rw [num]; decide, good limit 40 (.inr rfl)⟩
  unfold due blocks
  rw [List.filter_cons_of_neg (by simpa using h1), List.filter_cons_of_neg (by simpa using h2),
    List.filter_cons_of_pos (by simpa using h3), List.filter_nil]

/-- The bridge can finish, and then the two good blocks were offered. -/
example : ∃ s : State UInt8 UInt8 UInt8 UInt8 Nat, Reachable (env 2) ⟨0, some 8191⟩ [] id s ∧ s.main = .finished ∧
    started s 0 = [block 25 25, block 40 40] ∧ ∀ b ∈ s.blocks, BlockServed (env 2) b := by
  have hord : ∀ l : List Part, (id l).Perm l := fun l => List.Perm.refl l
  have hend : EndsAt ⟨0, some 8191⟩ [] 8191 := .inl rfl
  have hfiles : ∀ e, 0 / 8192 ≤ e → e ≤ 8191 / 8192 → ∃ ts, File (env 2) e ts ∧ ∀ t ∈ ts, HeaderSafe (env 2) t :=
    fun e _ h => ⟨blocks, file 2 e (by omega), safe 2⟩
  obtain ⟨es, he⟩ := (C78_no_panic (env 2) ⟨0, some 8191⟩ [] id hord 8191 hend (by decide) hfiles
    (launch (env 2) ⟨0, some 8191⟩ [] id : State UInt8 UInt8 UInt8 UInt8 Nat) ⟨[], rfl⟩).2 (by decide)
  have hr : Reachable (env 2) ⟨0, some 8191⟩ [] id (run (env 2) (launch (env 2) ⟨0, some 8191⟩ [] id) es) := ⟨es, rfl⟩
  obtain ⟨h1, h2⟩ := C78_complete_partial (env 2) ⟨0, some 8191⟩ [] id hord 8191 hend (by decide) _ hr he
  obtain ⟨ts, hf, hs⟩ := h1 0 (by decide) (by decide)
  cases FileBridge.file_unique hf (file 2 0 (by decide))
  exact ⟨_, hr, he, (hs (own 2)).trans (due_all 2), h2⟩

/-- With a range that begins in the middle of the epoch only the second of them is due. -/
example : due (env 2) 30 100 blocks = [block 40 40] := due_some 2

/-- The file served for epoch 1 holds blocks of epoch 0; a bridge for epoch 1 offers them (`C78_foreign_violated`). -/
example : ∃ s : State UInt8 UInt8 UInt8 UInt8 Nat, Reachable (env 2) ⟨8192, some 16383⟩ [] id s ∧ s.main = .finished ∧
    block 25 25 ∈ started s 1 := by
  have hord : ∀ l : List Part, (id l).Perm l := fun l => List.Perm.refl l
  have hend : EndsAt ⟨8192, some 16383⟩ [] 16383 := .inl rfl
  have hfiles : ∀ e, 8192 / 8192 ≤ e → e ≤ 16383 / 8192 → ∃ ts, File (env 2) e ts ∧ ∀ t ∈ ts, HeaderSafe (env 2) t :=
    fun e _ h => ⟨blocks, file 2 e (by omega), safe 2⟩
  obtain ⟨es, he⟩ := (C78_no_panic (env 2) ⟨8192, some 16383⟩ [] id hord 16383 hend (by decide) hfiles
    (launch (env 2) ⟨8192, some 16383⟩ [] id : State UInt8 UInt8 UInt8 UInt8 Nat) ⟨[], rfl⟩).2 (by decide)
  have hr : Reachable (env 2) ⟨8192, some 16383⟩ [] id (run (env 2) (launch (env 2) ⟨8192, some 16383⟩ [] id) es) := ⟨es, rfl⟩
  exact ⟨_, hr, he, C78_foreign_violated (env 2) ⟨8192, some 16383⟩ [] id hord 16383 hend (by decide) 1 (by decide) (by decide)
    blocks (file 2 1 (by decide)) _ hr he _ (by simp [blocks]) (good 2 25 (.inl rfl))⟩

/-- The conditions of `C78_zero_limit_violated`, `C78_missing_violated` and `C78_first_missing_violated`. -/
example : (env 0).offerLimit = 0 ∧ File (env 0) 0 blocks ∧ OwnBlocks (env 0) 0 blocks ∧ due (env 0) 0 8191 blocks ≠ [] :=
  ⟨rfl, file 0 0 (by decide), own 0, by rw [due_all]; simp⟩
example : ∀ ts, ¬ File (env 1) 2 ts := by
  rintro ts ⟨b, hb, -⟩
  cases hb
example : Epochs.blockRangeToEpochs 16384 24575 = some [(2, none)] ∧ (env 1).download 2 = none := by
  constructor <;> decide +kernel
/-- The condition of `C78_latest`. -/
example : E2hsGen.checkLinks [1, 0, 2] = true := by decide

end Verif.FileBridgeExample
