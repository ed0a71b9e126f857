import Verif.Props.BlockExecutorSpec

/-! # Helper lemmas for block execution -/

namespace Verif.Evm

/-! ## Forks -/

/-- Which fork is found at which block. -/
theorem getSpecId_cases (n : Nat) :
    (19426587 ≤ n ∧ getSpecId n = .cancun) ∨ (17034870 ≤ n ∧ n < 19426587 ∧ getSpecId n = .shanghai) ∨
    (15537394 ≤ n ∧ n < 17034870 ∧ getSpecId n = .merge) ∨ (15050000 ≤ n ∧ n < 15537394 ∧ getSpecId n = .grayGlacier) ∨
    (13773000 ≤ n ∧ n < 15050000 ∧ getSpecId n = .arrowGlacier) ∨ (12965000 ≤ n ∧ n < 13773000 ∧ getSpecId n = .london) ∨
    (12244000 ≤ n ∧ n < 12965000 ∧ getSpecId n = .berlin) ∨ (9200000 ≤ n ∧ n < 12244000 ∧ getSpecId n = .muirGlacier) ∨
    (9069000 ≤ n ∧ n < 9200000 ∧ getSpecId n = .istanbul) ∨ (7280000 ≤ n ∧ n < 9069000 ∧ getSpecId n = .petersburg) ∨
    (4370000 ≤ n ∧ n < 7280000 ∧ getSpecId n = .byzantium) ∨ (2675000 ≤ n ∧ n < 4370000 ∧ getSpecId n = .spuriousDragon) ∨
    (2463000 ≤ n ∧ n < 2675000 ∧ getSpecId n = .tangerine) ∨ (1920000 ≤ n ∧ n < 2463000 ∧ getSpecId n = .daoFork) ∨
    (1150000 ≤ n ∧ n < 1920000 ∧ getSpecId n = .homestead) ∨ (200000 ≤ n ∧ n < 1150000 ∧ getSpecId n = .frontierThawing) ∨
    (n < 200000 ∧ getSpecId n = .frontier) := by
  have e : getSpecId n = (match ([(SpecId.cancun, 19426587), (.shanghai, 17034870), (.merge, 15537394), (.grayGlacier, 15050000),
      (.arrowGlacier, 13773000), (.london, 12965000), (.berlin, 12244000), (.muirGlacier, 9200000), (.istanbul, 9069000),
      (.petersburg, 7280000), (.constantinople, 7280000), (.byzantium, 4370000), (.spuriousDragon, 2675000), (.tangerine, 2463000),
      (.daoFork, 1920000), (.homestead, 1150000), (.frontierThawing, 200000), (.frontier, 0)] : List (SpecId × Nat)).find? fun f => f.2 ≤ n with
    | some f => f.1
    | none => .prague) := rfl
  rw [e]
  simp only [List.find?_cons]
  by_cases h1 : 19426587 ≤ n
  · simp [h1]
  by_cases h2 : 17034870 ≤ n
  · simp [h1, h2]; omega
  by_cases h3 : 15537394 ≤ n
  · simp [h1, h2, h3]; omega
  by_cases h4 : 15050000 ≤ n
  · simp [h1, h2, h3, h4]; omega
  by_cases h5 : 13773000 ≤ n
  · simp [h1, h2, h3, h4, h5]; omega
  by_cases h6 : 12965000 ≤ n
  · simp [h1, h2, h3, h4, h5, h6]; omega
  by_cases h7 : 12244000 ≤ n
  · simp [h1, h2, h3, h4, h5, h6, h7]; omega
  by_cases h8 : 9200000 ≤ n
  · simp [h1, h2, h3, h4, h5, h6, h7, h8]; omega
  by_cases h9 : 9069000 ≤ n
  · simp [h1, h2, h3, h4, h5, h6, h7, h8, h9]; omega
  by_cases h10 : 7280000 ≤ n
  · simp [h1, h2, h3, h4, h5, h6, h7, h8, h9, h10]; omega
  by_cases h11 : 4370000 ≤ n
  · simp [h1, h2, h3, h4, h5, h6, h7, h8, h9, h10, h11]; omega
  by_cases h12 : 2675000 ≤ n
  · simp [h1, h2, h3, h4, h5, h6, h7, h8, h9, h10, h11, h12]; omega
  by_cases h13 : 2463000 ≤ n
  · simp [h1, h2, h3, h4, h5, h6, h7, h8, h9, h10, h11, h12, h13]; omega
  by_cases h14 : 1920000 ≤ n
  · simp [h1, h2, h3, h4, h5, h6, h7, h8, h9, h10, h11, h12, h13, h14]; omega
  by_cases h15 : 1150000 ≤ n
  · simp [h1, h2, h3, h4, h5, h6, h7, h8, h9, h10, h11, h12, h13, h14, h15]; omega
  by_cases h16 : 200000 ≤ n
  · simp [h1, h2, h3, h4, h5, h6, h7, h8, h9, h10, h11, h12, h13, h14, h15, h16]; omega
  · simp [h1, h2, h3, h4, h5, h6, h7, h8, h9, h10, h11, h12, h13, h14, h15, h16]; omega

theorem index_le (n : Nat) (f : SpecId) (b : Nat) (h : (f, b) ∈ mainnet) (hp : f ≠ .prague) :
    f.index ≤ (getSpecId n).index ↔ b ≤ n := by
  simp only [mainnet, List.mem_cons, Prod.mk.injEq, List.not_mem_nil, or_false] at h
  have hc := getSpecId_cases n
  rcases hc with ⟨_, e⟩ | ⟨_, _, e⟩ | ⟨_, _, e⟩ | ⟨_, _, e⟩ | ⟨_, _, e⟩ | ⟨_, _, e⟩ | ⟨_, _, e⟩ | ⟨_, _, e⟩ | ⟨_, _, e⟩ | ⟨_, _, e⟩ |
    ⟨_, _, e⟩ | ⟨_, _, e⟩ | ⟨_, _, e⟩ | ⟨_, _, e⟩ | ⟨_, _, e⟩ | ⟨_, _, e⟩ | ⟨_, e⟩ <;> rw [e] <;>
  rcases h with ⟨rfl, rfl⟩ | ⟨rfl, rfl⟩ | ⟨rfl, rfl⟩ | ⟨rfl, rfl⟩ | ⟨rfl, rfl⟩ | ⟨rfl, rfl⟩ | ⟨rfl, rfl⟩ | ⟨rfl, rfl⟩ |
    ⟨rfl, rfl⟩ | ⟨rfl, rfl⟩ | ⟨rfl, rfl⟩ | ⟨rfl, rfl⟩ | ⟨rfl, rfl⟩ | ⟨rfl, rfl⟩ | ⟨rfl, rfl⟩ | ⟨rfl, rfl⟩ | ⟨rfl, rfl⟩ |
    ⟨rfl, rfl⟩ | ⟨rfl, rfl⟩ <;> first | exact absurd rfl hp | (simp only [SpecId.index]; omega)

theorem enabled (n : Nat) (f : SpecId) (b : Nat) (h : (f, b) ∈ mainnet) (hp : f ≠ .prague) :
    (getSpecId n).isEnabledIn f = decide (b ≤ n) := by
  unfold SpecId.isEnabledIn
  exact decide_eq_decide.mpr (index_le n f b h hp)

theorem not_prague (n : Nat) : (getSpecId n).isEnabledIn .prague = false := by
  rcases getSpecId_cases n with ⟨_, e⟩ | ⟨_, _, e⟩ | ⟨_, _, e⟩ | ⟨_, _, e⟩ | ⟨_, _, e⟩ | ⟨_, _, e⟩ | ⟨_, _, e⟩ | ⟨_, _, e⟩ | ⟨_, _, e⟩ | ⟨_, _, e⟩ |
    ⟨_, _, e⟩ | ⟨_, _, e⟩ | ⟨_, _, e⟩ | ⟨_, _, e⟩ | ⟨_, _, e⟩ | ⟨_, _, e⟩ | ⟨_, e⟩ <;> rw [e] <;> rfl

theorem getSpecId_mem (n : Nat) : ∃ b, (getSpecId n, b) ∈ mainnet ∧ b ≤ n := by
  rcases getSpecId_cases n with ⟨_, e⟩ | ⟨_, _, e⟩ | ⟨_, _, e⟩ | ⟨_, _, e⟩ | ⟨_, _, e⟩ | ⟨_, _, e⟩ | ⟨_, _, e⟩ | ⟨_, _, e⟩ | ⟨_, _, e⟩ | ⟨_, _, e⟩ |
    ⟨_, _, e⟩ | ⟨_, _, e⟩ | ⟨_, _, e⟩ | ⟨_, _, e⟩ | ⟨_, _, e⟩ | ⟨_, _, e⟩ | ⟨_, e⟩ <;> rw [e] <;>
    simp [mainnet] <;> omega

theorem active_getSpecId {n : Nat} (hn : n < 22431084) : Active n (getSpecId n) := by
  refine ⟨getSpecId_mem n, ?_⟩
  intro f b h hb
  have hp : f ≠ .prague := by
    intro e
    subst e
    simp [mainnet] at h
    omega
  exact (index_le n f b h hp).mpr hb

theorem index_inj {f g : SpecId} (h : f.index = g.index) : f = g := by
  cases f <;> cases g <;> first | rfl | (simp [SpecId.index] at h)

theorem active_unique {n : Nat} {f g : SpecId} (hf : Active n f) (hg : Active n g) : f = g := by
  obtain ⟨⟨b, h1, h2⟩, h3⟩ := hf
  obtain ⟨⟨c, k1, k2⟩, k3⟩ := hg
  exact index_inj (Nat.le_antisymm (k3 f b h1 h2) (h3 g c k1 k2))

/-! ## Credits -/

/-- What an address is credited. -/
def credit (c : Credits) (a : Address) : Nat := ((c.filter fun e => e.1 = a).map (·.2)).sum

def total (c : Credits) : Nat := (c.map (·.2)).sum

theorem credit_cons (e : Address × Nat) (c : Credits) (a : Address) :
    credit (e :: c) a = (if e.1 = a then e.2 else 0) + credit c a := by
  unfold credit
  by_cases h : e.1 = a
  · simp [List.filter_cons, h]
  · simp [List.filter_cons, h]

theorem add_some (c : Credits) (a : Address) (v : Nat) (h : total c + v < 2 ^ 128) :
    ∃ c', c.add a v = some c' ∧ total c' = total c + v ∧ ∀ x, credit c' x = credit c x + (if x = a then v else 0) := by
  induction c with
  | nil =>
    unfold Credits.add
    rw [if_pos (by simp [total] at h; exact h)]
    refine ⟨_, rfl, by simp [total], fun x => ?_⟩
    rw [credit_cons]
    by_cases hx : x = a
    · simp [hx, credit]
    · simp [hx, credit, show ¬ a = x from fun e => hx e.symm]
  | cons e c ih =>
    obtain ⟨b, w⟩ := e
    have ht : total ((b, w) :: c) = w + total c := by simp [total]
    unfold Credits.add
    by_cases hb : b = a
    · rw [if_pos hb, if_pos (by rw [ht] at h; omega)]
      refine ⟨_, rfl, by simp [total]; omega, fun x => ?_⟩
      rw [credit_cons, credit_cons]
      by_cases hx : x = a
      · simp [hx, hb]; omega
      · simp [hx, hb, show ¬ a = x from fun e => hx e.symm]
    · rw [if_neg hb]
      obtain ⟨c', h1, h2, h3⟩ := ih (by rw [ht] at h; omega)
      rw [h1]
      refine ⟨_, rfl, by simp [total] at h2 ⊢; omega, fun x => ?_⟩
      rw [credit_cons, credit_cons, h3]
      omega

theorem increment_balance (c : Credits) : ∀ (s : State) (a : Address),
    (increment s c a).rest = (s a).rest ∧ (increment s c a).balance = (s a).balance + credit c a := by
  induction c with
  | nil => intro s a; simp [increment, credit]
  | cons e c ih =>
    intro s a
    have : increment s (e :: c) = increment (s.set e.1 { s e.1 with balance := (s e.1).balance + e.2 }) c := rfl
    rw [this]
    obtain ⟨h1, h2⟩ := ih (s.set e.1 { s e.1 with balance := (s e.1).balance + e.2 }) a
    rw [h1, h2, credit_cons]
    unfold State.set
    by_cases ha : a = e.1
    · subst ha; simp; omega
    · simp [ha, show ¬ e.1 = a from fun h => ha h.symm]

theorem credit_perm {c c' : Credits} (h : c.Perm c') (a : Address) : credit c a = credit c' a := by
  unfold credit
  exact ((h.filter _).map _).sum_nat

theorem reached_iff (n : Nat) : reached .merge n = decide (15537394 ≤ n) ∧ reached .constantinople n = decide (7280000 ≤ n) ∧
    reached .byzantium n = decide (4370000 ≤ n) := by
  have h1 : specBlock .merge = some 15537394 := by decide
  have h2 : specBlock .constantinople = some 7280000 := by decide
  have h3 : specBlock .byzantium = some 4370000 := by decide
  simp [reached, h1, h2, h3]

theorem baseReward_eq (n : Nat) : baseReward n = if 15537394 ≤ n then none else some (blockReward n) := by
  obtain ⟨h1, h2, h3⟩ := reached_iff n
  unfold baseReward blockReward ethToWei
  rw [h1, h2, h3]
  by_cases a : 15537394 ≤ n
  · simp [a]
  · by_cases b : 7280000 ≤ n
    · simp [a, b, show n < 15537394 by omega, show ¬ n < 7280000 by omega, show ¬ n < 4370000 by omega]
    · by_cases c : 4370000 ≤ n
      · simp [a, b, c, show n < 7280000 by omega, show ¬ n < 4370000 by omega]
      · simp [a, b, c, show n < 4370000 by omega]

theorem uncleReward_eq {b : Block} {u : Address × Nat} (h1 : u.2 < b.header.number) (h2 : b.header.number ≤ u.2 + 7)
    (h3 : b.header.number < 2 ^ 63) : uncleReward (blockReward b.header.number) b.header.number u.2 = some (unclePay b u) := by
  unfold uncleReward unclePay
  rw [if_pos (by constructor <;> omega), Nat.shiftRight_eq_div_pow]
  congr 3
  omega

theorem addUncles_some (b : Block) (h3 : b.header.number < 2 ^ 63) (us : List (Address × Nat)) :
    ∀ (c : Credits), (∀ u ∈ us, u.2 < b.header.number ∧ b.header.number ≤ u.2 + 7) →
    total c + (us.map (unclePay b)).sum < 2 ^ 128 →
    ∃ c', addUncles (blockReward b.header.number) b.header.number c us = some c' ∧
      total c' = total c + (us.map (unclePay b)).sum ∧
      ∀ x, credit c' x = credit c x + ((us.filter fun u => u.1 = x).map (unclePay b)).sum := by
  induction us with
  | nil => intro c _ _; exact ⟨c, rfl, by simp, by simp⟩
  | cons u us ih =>
    intro c hv ht
    obtain ⟨a, n⟩ := u
    obtain ⟨hu1, hu2⟩ := hv (a, n) List.mem_cons_self
    simp only [List.map_cons, List.sum_cons] at ht
    obtain ⟨c1, e1, t1, k1⟩ := add_some c a (unclePay b (a, n)) (by omega)
    obtain ⟨c2, e2, t2, k2⟩ := ih c1 (fun u hu => hv u (List.mem_cons_of_mem _ hu)) (by omega)
    refine ⟨c2, ?_, by simp only [List.map_cons, List.sum_cons]; omega, fun x => ?_⟩
    · unfold addUncles
      rw [uncleReward_eq (u := (a, n)) hu1 hu2 h3]
      simp only
      rw [e1]
      exact e2
    · rw [k2, k1]
      by_cases hx : a = x
      · simp [List.filter_cons, hx]; omega
      · simp [List.filter_cons, hx, show ¬ x = a from fun e => hx e.symm]

theorem addWithdrawals_some (ws : List Withdrawal) : ∀ (c : Credits),
    total c + (ws.map fun w => w.amount * 1000000000).sum < 2 ^ 128 →
    ∃ c', addWithdrawals c ws = some c' ∧ total c' = total c + (ws.map fun w => w.amount * 1000000000).sum ∧
      ∀ x, credit c' x = credit c x + ((ws.filter fun w => w.address = x).map fun w => w.amount * 1000000000).sum := by
  induction ws with
  | nil => intro c _; exact ⟨c, rfl, by simp, by simp⟩
  | cons w ws ih =>
    intro c ht
    simp only [List.map_cons, List.sum_cons] at ht
    unfold addWithdrawals
    by_cases h0 : w.amount = 0
    · rw [if_pos h0]
      obtain ⟨c2, e2, t2, k2⟩ := ih c (by omega)
      refine ⟨c2, e2, by simp only [List.map_cons, List.sum_cons]; omega, fun x => ?_⟩
      rw [k2]
      by_cases hx : w.address = x
      · simp [List.filter_cons, hx, h0]
      · simp [List.filter_cons, hx]
    · rw [if_neg h0]
      have hg : gweiToWei = 1000000000 := by decide
      rw [hg]
      clear hg
      obtain ⟨c1, e1, t1, k1⟩ := add_some c w.address (w.amount * 1000000000)
        (Nat.lt_of_le_of_lt (Nat.add_le_add_left (Nat.le_add_right _ _) _) ht)
      obtain ⟨c2, e2, t2, k2⟩ := ih c1 (by omega)
      rw [e1]
      refine ⟨c2, e2, by simp only [List.map_cons, List.sum_cons]; omega, fun x => ?_⟩
      rw [k2, k1]
      by_cases hx : w.address = x
      · simp [List.filter_cons, hx]; omega
      · simp [List.filter_cons, hx, show ¬ x = w.address from fun e => hx e.symm]

theorem processRewards_some {b : Block} {s : State} (h : Payable b s) :
    ∃ c, processRewards b [] = some c ∧ total c = minerPay b b.header.beneficiary + ((unclesOf b).map (unclePay b)).sum ∧
      ∀ x, credit c x = minerPay b x + unclesPay b x := by
  unfold processRewards
  rw [baseReward_eq]
  have hfit := h.fits
  unfold paidTotal at hfit
  by_cases hm : 15537394 ≤ b.header.number
  · rw [if_pos hm]
    have h0 : blockReward b.header.number = 0 := by
      unfold blockReward
      rw [if_neg (by omega), if_neg (by omega), if_neg (by omega)]
    have hu : ∀ us : List (Address × Nat), (us.map (unclePay b)).sum = 0 := by
      intro us
      induction us with
      | nil => rfl
      | cons u us ih => simp [unclePay, h0] at ih ⊢; exact ih
    refine ⟨[], rfl, ?_, fun x => ?_⟩
    · rw [hu]; simp [total, minerPay, h0]
    · unfold unclesPay; rw [hu]; simp [credit, minerPay, h0]
  · rw [if_neg hm]
    simp only
    cases hus : b.uncles with
    | none => exact absurd (h.uncles.resolve_right hm) (by simp [hus])
    | some us =>
      have hof : unclesOf b = us := by simp [unclesOf, hus]
      rw [hof] at hfit ⊢
      simp only
      obtain ⟨c1, e1, t1, k1⟩ := addUncles_some b h.number us [] (h.valid us hus) (by simp [total]; omega)
      rw [e1]
      simp only
      have hmp : blockReward b.header.number + (blockReward b.header.number >>> 5) * us.length = minerPay b b.header.beneficiary := by
        unfold minerPay
        rw [if_pos rfl, hof, Nat.shiftRight_eq_div_pow, Nat.mul_comm]
      obtain ⟨c2, e2, t2, k2⟩ := add_some c1 b.header.beneficiary (minerPay b b.header.beneficiary) (by simp [total] at t1 ⊢; omega)
      rw [hmp, e2]
      refine ⟨c2, rfl, by simp [total] at t1 t2 ⊢; omega, fun x => ?_⟩
      rw [k2, k1]
      unfold unclesPay
      rw [hof]
      by_cases hx : x = b.header.beneficiary
      · rw [hx]; simp [credit]; omega
      · simp [credit, hx, minerPay]

/-! ## The DAO fork -/

theorem drain_eq (as : List Address) : ∀ (s : State), as.Nodup →
    (drain s as).2 = as.map (fun a => (s a).balance) ∧
    ∀ a, (drain s as).1 a = if a ∈ as then { s a with balance := 0 } else s a := by
  induction as with
  | nil => intro s _; simp [drain]
  | cons x as ih =>
    intro s hn
    obtain ⟨hx, hn'⟩ := List.nodup_cons.mp hn
    obtain ⟨h1, h2⟩ := ih (s.set x { s x with balance := 0 }) hn'
    have e : drain s (x :: as) = ((drain (s.set x { s x with balance := 0 }) as).1,
        (s x).balance :: (drain (s.set x { s x with balance := 0 }) as).2) := rfl
    rw [e]
    simp only
    refine ⟨?_, fun a => ?_⟩
    · rw [h1, List.map_cons]
      congr 1
      apply List.map_congr_left
      intro a ha
      have : ¬ a = x := fun h => hx (h ▸ ha)
      simp [State.set, this]
    · rw [h2]
      by_cases hax : a = x
      · subst hax
        simp [State.set, hx]
      · simp [State.set, hax]

theorem dao_nodup : daoAccounts.Nodup := by decide +kernel

theorem processDao_some {b : Block} {s : State} {c : Credits} (ht : total c + daoMoved b s < 2 ^ 128) :
    ∃ s' c', processDao b s c = some (s', c') ∧
      (∀ x, credit c' x = credit c x + (if x = daoBeneficiary then daoMoved b s else 0)) ∧
      ∀ a, s' a = if b.header.number = 1920000 ∧ a ∈ daoAccounts then { s a with balance := 0 } else s a := by
  have hs : specBlock .daoFork = some 1920000 := by decide
  unfold processDao
  rw [hs]
  by_cases hn : b.header.number = 1920000
  · rw [if_pos (by rw [hn])]
    obtain ⟨h1, h2⟩ := drain_eq daoAccounts s dao_nodup
    have hm : daoMoved b s = (drain s daoAccounts).2.sum := by unfold daoMoved; rw [if_pos hn, h1]
    rw [hm] at ht
    obtain ⟨c', e, _, k⟩ := add_some c daoBeneficiary _ ht
    generalize hd : drain s daoAccounts = r at h1 h2 e k hm
    obtain ⟨s', l⟩ := r
    simp only at h1 h2 e k hm ⊢
    rw [e]
    refine ⟨s', c', rfl, fun x => by rw [k, hm], fun a => ?_⟩
    rw [h2]
    simp [hn]
  · rw [if_neg (by intro h; exact hn (Option.some.inj h).symm)]
    refine ⟨s, c, rfl, fun x => ?_, fun a => ?_⟩
    · unfold daoMoved; rw [if_neg hn]; simp
    · simp [hn]

theorem beneficiaries_some {b : Block} {s : State} (h : Payable b s) :
    ∃ s' c, beneficiaries b s = some (s', c) ∧ (∀ x, credit c x = paid b s x) ∧
      ∀ a, s' a = if b.header.number = 1920000 ∧ a ∈ daoAccounts then { s a with balance := 0 } else s a := by
  have hfit := h.fits
  unfold paidTotal at hfit
  obtain ⟨c1, e1, t1, k1⟩ := processRewards_some h
  have hw : ∃ c2, processWithdrawals b c1 = some c2 ∧
      total c2 = total c1 + ((withdrawalsOf b).map fun w => w.amount * 1000000000).sum ∧
      ∀ x, credit c2 x = credit c1 x + withdrawalsPay b x := by
    unfold processWithdrawals withdrawalsPay withdrawalsOf at *
    cases hws : b.withdrawals with
    | none => exact ⟨c1, rfl, by simp, by simp⟩
    | some ws =>
      rw [hws] at hfit
      simp only [Option.getD_some] at hfit ⊢
      exact addWithdrawals_some ws c1 (by omega)
  obtain ⟨c2, e2, t2, k2⟩ := hw
  obtain ⟨s', c3, e3, k3, k4⟩ := processDao_some (b := b) (s := s) (c := c2) (by omega)
  refine ⟨s', c3, ?_, fun x => ?_, k4⟩
  · unfold beneficiaries
    rw [e1]
    simp only
    rw [e2]
    exact e3
  · rw [k3, k2, k1]; unfold paid; omega

/-- The payments of a block, in whatever order they are made. -/
theorem settle {b : Block} {s : State} (h : Payable b s) : ∃ s' c, beneficiaries b s = some (s', c) ∧
    ∀ c', c.Perm c' → Settled b s (increment s' c') := by
  obtain ⟨s', c, e, k1, k2⟩ := beneficiaries_some h
  refine ⟨s', c, e, fun c' hp a => ?_⟩
  obtain ⟨h1, h2⟩ := increment_balance c' s' a
  rw [h1, h2, ← credit_perm hp, k1, k2]
  by_cases hd : b.header.number = 1920000 ∧ a ∈ daoAccounts
  · rw [if_pos hd, if_pos hd]; exact ⟨rfl, rfl⟩
  · rw [if_neg hd, if_neg hd]; exact ⟨rfl, rfl⟩

theorem settled_unique {b : Block} {s s₁ s₂ : State} (h1 : Settled b s s₁) (h2 : Settled b s s₂) : s₁ = s₂ := by
  funext a
  obtain ⟨a1, a2⟩ := h1 a
  obtain ⟨b1, b2⟩ := h2 a
  cases hx : s₁ a with
  | mk x y =>
    cases hy : s₂ a with
    | mk z w =>
      rw [hx] at a1 a2
      rw [hy] at b1 b2
      simp only at a1 a2 b1 b2
      rw [a1, b1, a2, b2]

/-! ## Environments -/

theorem createBlockEnv_spec {h : Header} (hn : h.number < 22431084) : BlockEnvOf h (createBlockEnv h) := by
  have hm : (SpecId.merge, 15537394) ∈ mainnet := by decide
  refine ⟨rfl, rfl, rfl, rfl, rfl, ?_, ?_, rfl⟩
  · show (if (getSpecId h.number).isEnabledIn .merge then some h.mixHash else none) = _
    rw [enabled _ _ _ hm (by decide)]
    by_cases hx : 15537394 ≤ h.number <;> simp [hx]
  · show h.excessBlobGas.map (fun e => (e, (getSpecId h.number).isEnabledIn .prague)) = _
    rw [not_prague]
    congr 1
    funext e
    simp [show ¬ 22431084 ≤ h.number by omega]

theorem blockEnv_unique {h : Header} {e e' : BlockEnv} (h1 : BlockEnvOf h e) (h2 : BlockEnvOf h e') : e = e' := by
  cases e; cases e'
  obtain ⟨a1, a2, a3, a4, a5, a6, a7, a8⟩ := h1
  obtain ⟨b1, b2, b3, b4, b5, b6, b7, b8⟩ := h2
  simp only at a1 a2 a3 a4 a5 a6 a7 a8 b1 b2 b3 b4 b5 b6 b7 b8
  simp [*]

theorem modify_iff (n : Nat) (sender : Address) (tx : Tx) (env env' : TxEnv) :
    modify sender tx n env = some env' ↔ TxEnvOf n sender tx env' := by
  have hs : (SpecId.spuriousDragon, 2675000) ∈ mainnet := by decide
  have hd := enabled n _ _ hs (by decide)
  constructor
  · intro h
    cases tx with
    | legacy nonce gasPrice gasLimit to value input chainId =>
      simp only [modify, hd, decide_eq_true_eq, Option.some.injEq] at h
      rw [← h]; exact .legacy ..
    | eip2930 => simp only [modify, Option.some.injEq] at h; rw [← h]; exact .eip2930 ..
    | eip1559 => simp only [modify, Option.some.injEq] at h; rw [← h]; exact .eip1559 ..
    | eip4844 => simp only [modify, Option.some.injEq] at h; rw [← h]; exact .eip4844 ..
    | setCode => cases h
  · intro h
    cases h with
    | legacy => simp only [modify, hd, decide_eq_true_eq]
    | eip2930 => rfl
    | eip1559 => rfl
    | eip4844 => rfl

/-! ## Execution -/

theorem commit_changed (changes : List (Address × Account)) : ∀ (s : State), Changed changes s (s.commit changes) := by
  induction changes with
  | nil => intro s a; rfl
  | cons x xs ih =>
    intro s a
    have : s.commit (x :: xs) = (s.set x.1 x.2).commit xs := rfl
    rw [this, ih, List.reverse_cons, List.find?_append]
    cases hf : xs.reverse.find? (fun c => c.1 = a) with
    | some y => simp
    | none =>
      by_cases hk : x.1 = a
      · simp [State.set, hk]
      · simp [State.set, hk, show ¬ a = x.1 from fun e => hk e.symm]

theorem changed_iff {changes : List (Address × Account)} {s s' : State} : Changed changes s s' ↔ s' = s.commit changes := by
  constructor
  · intro h
    funext a
    rw [h a, commit_changed changes s a]
  · intro h
    subst h
    exact commit_changed changes s

theorem beacon_iff (r : Rules) (e : Evm) (h : Header) :
    (∀ e', applyBeaconRoot r e h = some e' → BeaconRoot r e.spec e.clear h e.block e.state e'.state ∧
      e' = { e with state := e'.state }) ∧
    (∀ s', BeaconRoot r e.spec e.clear h e.block e.state s' → applyBeaconRoot r e h = some { e with state := s' }) := by
  have hc : (SpecId.cancun, 19426587) ∈ mainnet := by decide
  unfold applyBeaconRoot
  rw [enabled _ _ _ hc (by decide)]
  by_cases hn : 19426587 ≤ h.number
  · simp only [hn, decide_true, if_true]
    cases hr : h.parentBeaconRoot with
    | none =>
      refine ⟨fun e' he => (by cases he), fun s' hs => ?_⟩
      cases hs with
      | before hb => omega
      | call _ root gas changes tx h1 h2 => rw [hr] at h2; cases h2
    | some root =>
      simp only
      generalize htx : beaconTx r root = tx
      have hrep : ({ e with tx := tx, block := { e.block with gasLimit := tx.gasLimit, baseFee := 0 } } : Evm).replay r =
        r.transact e.spec e.clear { e.block with gasLimit := tx.gasLimit, baseFee := 0 } tx e.state := rfl
      rw [hrep]
      cases ht : r.transact e.spec e.clear { e.block with gasLimit := tx.gasLimit, baseFee := 0 } tx e.state with
      | none =>
        refine ⟨fun e' he => (by cases he), fun s' hs => ?_⟩
        cases hs with
        | before hb => omega
        | call _ root' gas changes tx' h1 h2 h3 h4 h5 =>
          rw [hr] at h2
          cases h2
          have h3 := h3.trans htx
          subst h3
          rw [ht] at h4
          cases h4
      | some res =>
        obtain ⟨gas, changes⟩ := res
        refine ⟨fun e' he => ?_, fun s' hs => ?_⟩
        · cases he
          exact ⟨.call _ _ root gas changes tx hn hr htx.symm ht (commit_changed _ _), rfl⟩
        · cases hs with
          | before hb => omega
          | call _ root' gas' changes' tx' h1 h2 h3 h4 h5 =>
            rw [hr] at h2
            cases h2
            have h3 := h3.trans htx
            subst h3
            rw [ht] at h4
            cases h4
            rw [changed_iff.mp h5]
  · simp only [hn, decide_false, Bool.false_eq_true, if_false]
    refine ⟨fun e' he => ?_, fun s' hs => ?_⟩
    · cases he
      exact ⟨.before _ (by omega), rfl⟩
    · cases hs with
      | before hb => rfl
      | call _ root gas changes tx h1 => exact absurd h1 hn

theorem transactions_iff (r : Rules) (txs : List (Address × Tx)) : ∀ (e : Evm) (gas : Nat),
    (∀ e' gas', executeTransactions r e gas txs = some (e', gas') →
      ∃ g, gas' = gas + g ∧ Transactions r e.spec e.clear e.block txs e.state g e'.state) ∧
    (∀ g s', Transactions r e.spec e.clear e.block txs e.state g s' →
      ∃ e', executeTransactions r e gas txs = some (e', gas + g) ∧ e'.state = s') := by
  induction txs with
  | nil =>
    intro e gas
    refine ⟨fun e' gas' h => ?_, fun g s' h => ?_⟩
    · cases h; exact ⟨0, rfl, .nil _⟩
    · cases h; exact ⟨e, rfl, rfl⟩
  | cons x txs ih =>
    intro e gas
    obtain ⟨sender, tx⟩ := x
    refine ⟨fun e' gas' h => ?_, fun g s' h => ?_⟩
    · unfold executeTransactions at h
      cases hm : modify sender tx e.block.number e.tx with
      | none => rw [hm] at h; cases h
      | some env =>
        rw [hm] at h
        simp only at h
        cases ht : ({ e with tx := env } : Evm).replay r with
        | none => rw [ht] at h; cases h
        | some res =>
          obtain ⟨used, changes⟩ := res
          rw [ht] at h
          simp only at h
          obtain ⟨g, h1, h2⟩ := (ih { e with tx := env, state := e.state.commit changes } (gas + used)).1 e' gas' h
          exact ⟨used + g, by omega, .cons sender tx txs env _ _ _ used g changes ((modify_iff ..).mp hm) ht (commit_changed _ _) h2⟩
    · cases h with
      | cons _ _ _ env _ s₁ _ used g changes h1 h2 h3 h4 =>
        unfold executeTransactions
        rw [(modify_iff e.block.number sender tx e.tx env).mpr h1]
        simp only
        have hrep : ({ e with tx := env } : Evm).replay r = some (used, changes) := h2
        rw [hrep]
        simp only
        rw [changed_iff.mp h3] at h4
        obtain ⟨e', k1, k2⟩ := (ih { e with tx := env, state := e.state.commit changes } (gas + used)).2 g s' h4
        exact ⟨e', by rw [k1]; congr 2; omega, k2⟩

end Verif.Evm
