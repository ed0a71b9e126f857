import Verif.Props.NodeConfigSpec

/-! Lemmas for C75. -/

namespace Verif.NodeConfig
open Verif.Capacity (Subnetwork)
open Verif.Events (Network)
open Verif.E2store (Res)
open Verif.Props (Active)
open Verif.Props.StartSpec

theorem cliArg_eq (s : Subnetwork) : cliArg s = (nameOf s).toList := by cases s <;> rfl

theorem parseSubnetwork_iff (t : Str) (s : Subnetwork) : parseSubnetwork t = some s ↔ t = (nameOf s).toList := by
  constructor
  · intro h
    unfold parseSubnetwork at h
    repeat' split at h
    all_goals first | (cases h; assumption) | cases h
  · rintro rfl
    cases s <;> decide +kernel

theorem parseNetwork_iff (t : Str) (n : Network) : parseNetwork t = some n ↔ t = (networkName n).toList := by
  constructor
  · intro h
    unfold parseNetwork at h
    repeat' split at h
    all_goals first | (cases h; assumption) | cases h
  · rintro rfl
    cases n <;> decide +kernel

theorem parseTransport_iff (t : Str) (x : Transport) : parseTransport t = some x ↔ t = showTransport x := by
  constructor
  · intro h
    unfold parseTransport at h
    repeat' split at h
    all_goals first | (cases h; assumption) | cases h
  · rintro rfl
    cases x <;> decide +kernel

/-! ## Splitting at commas -/

theorem split_ne_nil (c : Char) (s : Str) : split c s ≠ [] := by
  cases s with
  | nil => simp [split]
  | cons x xs =>
    unfold split
    split
    · simp
    · split <;> simp

theorem split_append (c : Char) (p : Str) (hp : c ∉ p) (rest : Str) :
    split c (p ++ c :: rest) = p :: split c rest := by
  induction p with
  | nil => simp [split]
  | cons x xs ih =>
    have hx : x ≠ c := fun h => hp (by simp [h])
    have := ih (fun h => hp (by simp [h]))
    rw [List.cons_append, split, if_neg hx, this]

theorem split_none (c : Char) (p : Str) (hp : c ∉ p) : split c p = [p] := by
  induction p with
  | nil => simp [split]
  | cons x xs ih =>
    have hx : x ≠ c := fun h => hp (by simp [h])
    have := ih (fun h => hp (by simp [h]))
    rw [split, if_neg hx, this]

theorem split_joined : ∀ (ps : List Str), ps ≠ [] → (∀ p ∈ ps, ',' ∉ p) → split ',' (joined ps) = ps
  | [], h, _ => absurd rfl h
  | [p], _, hp => by rw [joined]; exact split_none _ _ (hp p (by simp))
  | p :: q :: rest, _, hp => by
    rw [joined, split_append _ _ (hp p (by simp)),
      split_joined (q :: rest) (by simp) (fun x hx => hp x (by simp [hx]))]

theorem joined_split (s : Str) : joined (split ',' s) = s := by
  induction s with
  | nil => rfl
  | cons x xs ih =>
    unfold split
    split
    · next h =>
      subst h
      cases hs : split ',' xs with
      | nil => exact absurd hs (split_ne_nil _ _)
      | cons p ps => rw [hs] at ih; rw [joined, ih]; rfl
    · cases hs : split ',' xs with
      | nil => exact absurd hs (split_ne_nil _ _)
      | cons p ps =>
        rw [hs] at ih
        simp only
        cases ps with
        | nil => rw [joined] at ih ⊢; rw [ih]
        | cons q qs => rw [joined] at ih ⊢; rw [← ih]; rfl

theorem parseAll_iff {p : Str → Option α} {g : α → Str} (hp : ∀ s a, p s = some a ↔ s = g a) :
    ∀ (ss : List Str) (l : List α), parseAll p ss = some l ↔ ss = l.map g
  | [], l => by
    simp only [parseAll, Option.some.injEq]
    cases l <;> simp
  | s :: ss, l => by
    unfold parseAll
    cases hs : p s with
    | none =>
      simp only [reduceCtorEq, false_iff]
      cases l with
      | nil => simp
      | cons a l =>
        simp only [List.map_cons, List.cons.injEq, not_and]
        intro h
        rw [(hp s a).2 h] at hs
        cases hs
    | some a =>
      have ha := (hp s a).1 hs
      simp only [Option.map_eq_some_iff]
      constructor
      · rintro ⟨l', h1, rfl⟩
        rw [List.map_cons, ← ha, (parseAll_iff hp ss l').1 h1]
      · intro h
        cases l with
        | nil => simp at h
        | cons b l =>
          simp only [List.map_cons, List.cons.injEq] at h
          have hb := (hp s b).2 h.1
          rw [hs] at hb
          cases hb
          exact ⟨l, (parseAll_iff hp ss l).2 h.2, rfl⟩

theorem nameOf_comma (s : Subnetwork) : ',' ∉ (nameOf s).toList := by
  cases s <;> decide +kernel

theorem isActive_iff (s : Subnetwork) : isActive s = true ↔ Active s := by
  cases s <;> simp [isActive, Active]

theorem parseSubnetworks_iff (t : Str) (l : List Subnetwork) : parseSubnetworks t = some l ↔ Lists t l := by
  unfold parseSubnetworks Lists
  constructor
  · intro h
    split at h
    · cases h
    · next subs hs =>
      split at h
      · cases h
      · next hne =>
        split at h
        · next hall =>
          cases h
          refine ⟨hne, ?_, ?_⟩
          · intro s hs'
            rw [List.all_eq_true] at hall
            exact (isActive_iff s).1 (hall s hs')
          · rw [← (parseAll_iff parseSubnetwork_iff _ _).1 hs, joined_split]
        · cases h
  · rintro ⟨hne, hact, rfl⟩
    rw [split_joined]
    · rw [(parseAll_iff parseSubnetwork_iff _ l).2 rfl]
      simp only
      rw [if_neg hne, if_pos]
      rw [List.all_eq_true]
      exact fun s hs => (isActive_iff s).2 (hact s hs)
    · simpa using hne
    · intro p hp
      obtain ⟨s, _, rfl⟩ := List.mem_map.1 hp
      exact nameOf_comma s

/-! ## Hex values -/

theorem toLower_toNat (c : Char) :
    c.toLower.toNat = if 65 ≤ c.toNat ∧ c.toNat ≤ 90 then c.toNat + 32 else c.toNat := by
  have hv : c.toNat = c.val.toNat := rfl
  unfold Char.toLower
  split
  · next h =>
    have h1 := UInt32.le_iff_toNat_le.1 h.1
    have h2 := UInt32.le_iff_toNat_le.1 h.2
    have e1 : ('A'.val).toNat = 65 := rfl
    have e2 : ('Z'.val).toNat = 90 := rfl
    rw [e1] at h1
    rw [e2] at h2
    rw [if_pos ⟨by rw [hv]; exact h1, by rw [hv]; exact h2⟩]
    show (c.val + ('a'.val - 'A'.val)).toNat = c.toNat + 32
    rw [UInt32.toNat_add]
    have e3 : ('a'.val - 'A'.val).toNat = 32 := rfl
    rw [e3, hv]
    omega
  · next h =>
    rw [if_neg]
    intro hc
    apply h
    constructor
    · apply UInt32.le_iff_toNat_le.2
      have e1 : ('A'.val).toNat = 65 := rfl
      rw [e1]; exact hc.1
    · apply UInt32.le_iff_toNat_le.2
      have e2 : ('Z'.val).toNat = 90 := rfl
      rw [e2]; exact hc.2

theorem digit_toNat : ∀ n : Fin 16, (Hex.digit n.val).toNat = if n.val < 10 then 48 + n.val else 87 + n.val := by
  decide

theorem char_ext {a b : Char} (h : a.toNat = b.toNat) : a = b := by
  apply Char.ext
  exact UInt32.toNat_inj.1 h

theorem digitVal_iff (c : Char) (n : Nat) :
    Hex.digitVal c = some n ↔ n < 16 ∧ c.toLower = Hex.digit n := by
  constructor
  · intro h
    have hn := Verif.Props.digitVal_lt h
    refine ⟨hn, char_ext ?_⟩
    rw [toLower_toNat, digit_toNat ⟨n, hn⟩]
    unfold Hex.digitVal at h
    simp only at h
    repeat' split at h
    all_goals first | (cases h; repeat' split) <;> simp only at * <;> omega | cases h
  · rintro ⟨hn, h⟩
    have h1 := congrArg Char.toNat h
    rw [toLower_toNat, digit_toNat ⟨n, hn⟩] at h1
    unfold Hex.digitVal
    simp only at h1 ⊢
    repeat' split at h1
    all_goals (repeat' split) <;> first | (congr 1; omega) | (exfalso; omega)

theorem decode_iff : ∀ (cs : Str) (bs : Bytes),
    Hex.hexBodyDecode cs = .ok bs ↔ cs.map Char.toLower = Hex.hexBody Hex.digit bs
  | [], bs => by
    cases bs <;> simp [Hex.hexBodyDecode, Hex.hexBody]
  | [a], bs => by
    cases bs <;> simp [Hex.hexBodyDecode, Hex.hexBody]
  | a :: b :: rest, bs => by
    unfold Hex.hexBodyDecode
    constructor
    · intro h
      split at h
      · next x y h1 h2 =>
        split at h
        · next bs' h3 =>
          cases h
          have e1 := (digitVal_iff _ _).1 h1
          have e2 := (digitVal_iff _ _).1 h2
          have e3 := (decode_iff rest bs').1 h3
          have e4 : (UInt8.ofNat (16 * x + y)).toNat = 16 * x + y := by
            rw [UInt8.toNat_ofNat']; omega
          simp only [List.map_cons, Hex.hexBody, e4]
          rw [e1.2, e2.2, e3, show (16 * x + y) / 16 = x by omega, show (16 * x + y) % 16 = y by omega]
        · cases h
      · cases h
    · intro h
      cases bs with
      | nil => simp [Hex.hexBody] at h
      | cons z bs =>
        simp only [List.map_cons, Hex.hexBody, List.cons.injEq] at h
        obtain ⟨h1, h2, h3⟩ := h
        have hz := z.toNat_lt
        rw [(digitVal_iff a (z.toNat / 16)).2 ⟨by omega, h1⟩, (digitVal_iff b (z.toNat % 16)).2 ⟨by omega, h2⟩]
        simp only
        rw [(decode_iff rest bs).2 h3]
        simp only
        rw [Nat.div_add_mod]
        simp

theorem hexBody_length (dig : Nat → Char) (bs : Bytes) : (Hex.hexBody dig bs).length = 2 * bs.length := by
  induction bs with
  | nil => rfl
  | cons b bs ih => simp only [Hex.hexBody, List.length_cons, ih]; omega

theorem digitVal_size {c : Char} {n : Nat} (h : Hex.digitVal c = some n) : c.utf8Size = 1 := by
  have h1 : Verif.Props.IsHexDigit c := (Verif.Props.digitVal_isSome_iff c).1 (by rw [h]; rfl)
  apply Char.utf8Size_eq_one_iff.2
  apply UInt32.le_iff_toNat_le.2
  show c.toNat ≤ 127
  unfold Verif.Props.IsHexDigit at h1
  simp only [Verif.Props.char_le_iff] at h1
  have h9 : '9'.toNat = 57 := rfl
  have hf : 'f'.toNat = 102 := rfl
  have hF : 'F'.toNat = 70 := rfl
  omega

theorem byteLen_decode : ∀ (cs : Str) (bs : Bytes), Hex.hexBodyDecode cs = .ok bs → byteLen cs = 2 * bs.length
  | [], bs, h => by cases h; rfl
  | [a], bs, h => by cases h
  | a :: b :: rest, bs, h => by
    unfold Hex.hexBodyDecode at h
    split at h
    · next x y h1 h2 =>
      split at h
      · next bs' h3 =>
        cases h
        have := byteLen_decode rest bs' h3
        unfold byteLen at this ⊢
        simp only [List.map_cons, List.sum_cons, digitVal_size h1, digitVal_size h2, this, List.length_cons]
        omega
      · cases h
    · cases h

theorem byteLen_cons (c : Char) (cs : Str) : byteLen (c :: cs) = c.utf8Size + byteLen cs := by
  simp [byteLen]

theorem parseB256_iff (s : Str) (bs : Bytes) (h66 : byteLen s = 66) :
    parseB256 s = some bs ↔ Denotes s bs := by
  unfold parseB256 Denotes
  constructor
  · intro h
    split at h
    · next bs' hd =>
      split at h
      · next hl =>
        cases h
        refine ⟨hl, ?_⟩
        unfold stripPrefix at hd
        split at hd
        · next rest => exact ⟨rest, rfl, (decode_iff _ _).1 hd⟩
        · next hno =>
          have := byteLen_decode _ _ hd
          rw [h66] at this
          omega
      · cases h
    · cases h
  · rintro ⟨hl, digits, rfl, hd⟩
    rw [show stripPrefix ('0' :: 'x' :: digits) = digits from rfl, (decode_iff _ _).2 hd]
    simp only
    rw [if_pos hl]

theorem denotes_byteLen {s : Str} {bs : Bytes} (h : Denotes s bs) : byteLen s = 66 := by
  obtain ⟨hl, digits, rfl, hd⟩ := h
  rw [byteLen_cons, byteLen_cons, byteLen_decode _ _ ((decode_iff _ _).2 hd), hl]
  rfl

theorem parsePrivateKey_iff (s : Str) (bs : Bytes) : parsePrivateKey s = some bs ↔ Denotes s bs := by
  unfold parsePrivateKey
  constructor
  · intro h
    split at h
    · next h66 => exact (parseB256_iff s bs h66).1 h
    · cases h
  · intro h
    rw [if_pos (denotes_byteLen h)]
    exact (parseB256_iff s bs (denotes_byteLen h)).2 h

theorem parseTrustedRoot_iff (s : Str) (bs : Bytes) : parseTrustedRoot s = some bs ↔ Denotes s bs := by
  unfold parseTrustedRoot
  constructor
  · intro h
    split at h
    · cases h
    · split at h
      · next h66 => exact (parseB256_iff s bs h66).1 h
      · cases h
  · intro h
    have h' := h
    obtain ⟨_, digits, rfl, _⟩ := h'
    rw [if_neg, if_pos (denotes_byteLen h)]
    · exact (parseB256_iff _ bs (denotes_byteLen h)).2 h
    · have : "0x".toList = ['0', 'x'] := by decide +kernel
      rw [this]
      simp [List.isPrefixOf]

/-! ## The flags together -/

theorem ok_bind {x : Except ε α} {f : α → Except ε β} {b : β} :
    (x >>= f) = .ok b ↔ ∃ a, x = .ok a ∧ f a = .ok b := by
  cases x <;> simp [bind, Except.bind]

theorem withDefault_ok {p : Str → Option α} {d : Str} {g : Option Str} {a : α} :
    withDefault p d g = .ok a ↔ p (g.getD d) = some a := by
  unfold withDefault required
  cases p (g.getD d) <;> simp

/-- The result of `try_parse_from`, field by field. -/
structure Parsed (f : Flags) (c : Config) : Prop where
  transport : parseTransport (f.web3Transport.getD "ipc".toList) = some c.transport
  privateKey : optional parsePrivateKey f.unsafePrivateKey = .ok c.privateKey
  trustedRoot : optional parseTrustedRoot f.trustedBlockRoot = .ok c.trustedRoot
  network : parseNetwork (f.network.getD "mainnet".toList) = some c.network
  subnetworks : parseSubnetworks (f.portalSubnetworks.getD "beacon,legacy_history".toList) = some c.subnetworks
  maxRadius : parseMaxRadius (f.maxRadius.getD (some 5)) = some c.maxRadius
  stun : (f.externalAddress.isSome && f.noStun) = false
  wsp : (f.wsPort.isSome && !f.ws) = false
  httpAddress : c.httpAddress = f.web3HttpAddress.getD defaultHttpAddress
  ipcPath : c.ipcPath = f.web3IpcPath.getD ⟨defaultIpcPath, true⟩
  externalAddress : c.externalAddress = f.externalAddress
  noStun : c.noStun = f.noStun
  storageTotal : c.storageTotal = totalOrDefault f
  storageBeacon : c.storageBeacon = f.storageBeacon
  storageLegacyHistory : c.storageLegacyHistory = f.storageLegacyHistory
  storageState : c.storageState = f.storageState
  ws : c.ws = f.ws
  wsPort : c.wsPort = f.wsPort.getD 8546

theorem tryParse_ok (f : Flags) (c : Config) : tryParse f = .ok c ↔ Parsed f c := by
  unfold tryParse
  constructor
  · intro h
    obtain ⟨t, ht, h⟩ := ok_bind.1 h
    obtain ⟨k, hk, h⟩ := ok_bind.1 h
    obtain ⟨r, hr, h⟩ := ok_bind.1 h
    obtain ⟨n, hn, h⟩ := ok_bind.1 h
    obtain ⟨s, hs, h⟩ := ok_bind.1 h
    obtain ⟨m, hm, h⟩ := ok_bind.1 h
    have hm' : parseMaxRadius (f.maxRadius.getD (some 5)) = some m := by
      unfold required at hm
      split at hm <;> simp_all
    split at h
    · cases h
    · next h1 =>
      split at h
      · cases h
      · next h2 =>
        cases h
        exact ⟨withDefault_ok.1 ht, hk, hr, withDefault_ok.1 hn, withDefault_ok.1 hs, hm', by simpa using h1,
          by simpa using h2, rfl, rfl, rfl, rfl, rfl, rfl, rfl, rfl, rfl, rfl⟩
  · intro h
    refine ok_bind.2 ⟨_, withDefault_ok.2 h.transport, ok_bind.2 ⟨_, h.privateKey, ok_bind.2 ⟨_, h.trustedRoot,
      ok_bind.2 ⟨_, withDefault_ok.2 h.network, ok_bind.2 ⟨_, withDefault_ok.2 h.subnetworks,
        ok_bind.2 ⟨c.maxRadius, by rw [h.maxRadius]; rfl, ?_⟩⟩⟩⟩⟩⟩
    rw [if_neg (by rw [h.stun]; simp), if_neg (by rw [h.wsp]; simp)]
    cases c
    simp only [Except.ok.injEq, Config.mk.injEq]
    simp [← h.httpAddress, ← h.ipcPath, ← h.externalAddress, ← h.noStun, ← h.storageTotal, ← h.storageBeacon,
      ← h.storageLegacyHistory, ← h.storageState, ← h.ws, ← h.wsPort]

theorem newFrom_ok (f : Flags) (c : Config) : newFrom f = .ok c ↔
    tryParse f = .ok c ∧ checkTransport c = .ok () ∧ checkDependencies c = .ok () ∧ checkStorage c = .ok () := by
  unfold newFrom
  constructor
  · intro h
    obtain ⟨c', h0, h⟩ := ok_bind.1 h
    obtain ⟨_, h1, h⟩ := ok_bind.1 h
    obtain ⟨_, h2, h⟩ := ok_bind.1 h
    obtain ⟨_, h3, h⟩ := ok_bind.1 h
    cases h
    exact ⟨h0, h1, h2, h3⟩
  · rintro ⟨h0, h1, h2, h3⟩
    exact ok_bind.2 ⟨_, h0, ok_bind.2 ⟨_, h1, ok_bind.2 ⟨_, h2, ok_bind.2 ⟨_, h3, rfl⟩⟩⟩⟩

theorem checkTransport_ok (c : Config) : checkTransport c = .ok () ↔
    (c.transport = .http → c.ipcPath.shown = defaultIpcPath) ∧
    (c.transport = .ipc → c.httpAddress = defaultHttpAddress ∧ c.ws = false) := by
  unfold checkTransport
  cases c.transport with
  | http => by_cases h : c.ipcPath.shown = defaultIpcPath <;> simp [h]
  | ipc =>
    by_cases h : c.httpAddress = defaultHttpAddress <;> cases hw : c.ws <;> simp [h]

theorem checkDependencies_ok (c : Config) : checkDependencies c = .ok () ↔
    ∀ s ∈ c.subnetworks, ∀ t, Needs s t → t ∈ c.subnetworks := by
  unfold checkDependencies
  rw [show (∀ s ∈ c.subnetworks, ∀ t, Needs s t → t ∈ c.subnetworks) ↔
    (c.subnetworks.all fun s => (dependencies s).all fun d => c.subnetworks.contains d) = true by
      simp only [List.all_eq_true, List.contains_iff_mem]
      constructor
      · intro h s hs d hd
        refine h s hs d ?_
        cases s <;> simp_all [dependencies, Needs]
        exact hd.symm
      · intro h s hs t ht
        refine h s hs t ?_
        cases s <;> simp_all [dependencies, Needs]
        exact ht.symm]
  split
  · next h => simp only [h]
  · next h => simp only [h, reduceCtorEq, Bool.false_eq_true]

theorem checkSubnetwork_ok (c : Config) (s : Subnetwork) (flag : Option Nat) :
    checkSubnetwork c s flag = .ok () ↔ (flag ≠ none ↔ s ∈ c.subnetworks) := by
  unfold checkSubnetwork
  by_cases h : s ∈ c.subnetworks <;> cases flag <;> simp [h]

theorem checkStorage_ok (c : Config) : checkStorage c = .ok () ↔
    (c.storageTotal ≠ none →
      c.storageBeacon = none ∧ c.storageLegacyHistory = none ∧ c.storageState = none) ∧
    (c.storageTotal = none →
      (c.storageBeacon ≠ none ↔ .beacon ∈ c.subnetworks) ∧
      (c.storageLegacyHistory ≠ none ↔ .legacyHistory ∈ c.subnetworks) ∧
      (c.storageState ≠ none ↔ .state ∈ c.subnetworks)) := by
  unfold checkStorage
  cases c.storageTotal with
  | some t =>
    cases c.storageBeacon <;> cases c.storageLegacyHistory <;> cases c.storageState <;> simp
  | none =>
    simp only [ne_eq, not_true_eq_false, false_implies, true_implies, true_and]
    constructor
    · intro h
      obtain ⟨_, h1, h⟩ := ok_bind.1 h
      obtain ⟨_, h2, h⟩ := ok_bind.1 h
      exact ⟨(checkSubnetwork_ok ..).1 h1, (checkSubnetwork_ok ..).1 h2, (checkSubnetwork_ok ..).1 h⟩
    · rintro ⟨h1, h2, h3⟩
      exact ok_bind.2 ⟨(), (checkSubnetwork_ok ..).2 h1, ok_bind.2 ⟨(), (checkSubnetwork_ok ..).2 h2,
        (checkSubnetwork_ok ..).2 h3⟩⟩

/-! ## JSON-RPC modules -/

theorem nodup_append_iff {l₁ l₂ : List α} :
    (l₁ ++ l₂).Nodup ↔ l₁.Nodup ∧ l₂.Nodup ∧ ∀ a ∈ l₁, a ∉ l₂ := by
  rw [List.nodup_append]
  constructor
  · rintro ⟨h1, h2, h3⟩
    exact ⟨h1, h2, fun a ha hb => h3 a ha a hb rfl⟩
  · rintro ⟨h1, h2, h3⟩
    exact ⟨h1, h2, fun a ha b hb hab => h3 a ha (hab ▸ hb)⟩

theorem flatMap_nodup_iff {f : α → List β} : ∀ (l : List α), (∀ a ∈ l, f a ≠ []) → (∀ a ∈ l, (f a).Nodup) →
    (∀ a ∈ l, ∀ b ∈ l, a ≠ b → ∀ x ∈ f a, x ∉ f b) → ((l.flatMap f).Nodup ↔ l.Nodup)
  | [], _, _, _ => by simp
  | a :: l, hne, hnd, hd => by
    have ih := flatMap_nodup_iff l (fun x hx => hne x (by simp [hx])) (fun x hx => hnd x (by simp [hx]))
      (fun x hx y hy => hd x (by simp [hx]) y (by simp [hy]))
    rw [List.flatMap_cons, nodup_append_iff, ih, List.nodup_cons]
    constructor
    · rintro ⟨_, h2, h3⟩
      refine ⟨?_, h2⟩
      intro ha
      cases hfa : f a with
      | nil => exact hne a (by simp) hfa
      | cons x xs => exact h3 x (by simp [hfa]) (List.mem_flatMap.2 ⟨a, ha, by simp [hfa]⟩)
    · rintro ⟨h1, h2⟩
      refine ⟨hnd a (by simp), h2, ?_⟩
      intro x hx hx'
      obtain ⟨b, hb, hxb⟩ := List.mem_flatMap.1 hx'
      exact hd a (by simp) b (by simp [hb]) (fun h => h1 (h ▸ hb)) x hx hxb

theorem methods_ne_nil (m : Module) : methods m ≠ [] := by
  cases m <;> simp [methods]

theorem methods_nodup (m : Module) : (methods m).Nodup := by
  cases m <;> decide +kernel

/-- The first letter of a name and, in the space `portal`, the eighth. -/
def tag (x : Str) : Option Char × Option Char := (x[0]?, if x[0]? = some 'p' then x[7]? else none)

theorem methods_tag (m : Module) : ∀ x ∈ methods m, tag x =
    match m with
    | .beacon => (some 'p', some 'b')
    | .discv5 => (some 'd', none)
    | .eth => (some 'e', none)
    | .legacyHistory => (some 'p', some 'l')
    | .state => (some 'p', some 's')
    | .web3 => (some 'w', none) := by
  cases m <;> decide +kernel

theorem methods_disjoint (m m' : Module) (h : m ≠ m') : ∀ x ∈ methods m, x ∉ methods m' := by
  intro x hx hx'
  have h1 := methods_tag m x hx
  rw [methods_tag m' x hx'] at h1
  cases m <;> cases m' <;> first | exact h rfl | simp at h1

theorem names_nodup_iff (ms : List Module) : (ms.flatMap methods).Nodup ↔ ms.Nodup :=
  flatMap_nodup_iff ms (fun m _ => methods_ne_nil m) (fun m _ => methods_nodup m)
    (fun m _ m' _ => methods_disjoint m m')

theorem mergeAll_eq : ∀ (ls : List (List Str)) (acc : List Str), acc.Nodup → (∀ l ∈ ls, l.Nodup) →
    mergeAll ls acc = if (acc ++ ls.flatten).Nodup then .ok (acc ++ ls.flatten) else .panic
  | [], acc, ha, _ => by simp [mergeAll, ha]
  | l :: ls, acc, ha, hl => by
    unfold mergeAll
    split
    · next h =>
      rw [if_neg]
      intro hn
      obtain ⟨x, hx, hx'⟩ := List.any_eq_true.1 h
      rw [List.contains_iff_mem] at hx'
      exact (nodup_append_iff.1 hn).2.2 x hx' (by simp [hx])
    · next h =>
      have hd : ∀ x ∈ acc, x ∉ l := by
        intro x hx hx'
        apply h
        exact List.any_eq_true.2 ⟨x, hx', by simpa using hx⟩
      rw [mergeAll_eq ls (acc ++ l) (nodup_append_iff.2 ⟨ha, hl l (by simp), hd⟩)
        (fun x hx => hl x (by simp [hx]))]
      simp only [List.flatten_cons, List.append_assoc]

/-- The modules of a subnetwork, none for one that cannot be run. -/
def mods (s : Subnetwork) : List Module := (subnetworkModules s).getD []

theorem pushModules_active : ∀ (subs : List Subnetwork) (ms : List Module), (∀ s ∈ subs, Active s) →
    pushModules subs ms = some (ms ++ subs.flatMap mods)
  | [], ms, _ => by simp [pushModules]
  | s :: subs, ms, h => by
    have hs : subnetworkModules s = some (mods s) := by
      rcases h s (by simp) with rfl | rfl | rfl <;> rfl
    unfold pushModules
    rw [hs]
    simp only
    rw [pushModules_active subs _ (fun x hx => h x (by simp [hx]))]
    simp [List.append_assoc]

/-- All modules of a node. -/
def allMods (subs : List Subnetwork) : List Module := [.discv5, .web3] ++ subs.flatMap mods

theorem modulesFor_active (subs : List Subnetwork) (h : ∀ s ∈ subs, Active s) :
    modulesFor subs = some (allMods subs) := pushModules_active subs _ h

theorem mods_active {s : Subnetwork} (h : Active s) : mods s ≠ [] ∧ (mods s).Nodup ∧
    ∀ m ∈ mods s, m ≠ .discv5 ∧ m ≠ .web3 := by
  rcases h with rfl | rfl | rfl <;> decide

theorem mods_disjoint {s t : Subnetwork} (hs : Active s) (ht : Active t) (h : s ≠ t) :
    ∀ m ∈ mods s, m ∉ mods t := by
  rcases hs with rfl | rfl | rfl <;> rcases ht with rfl | rfl | rfl <;>
    first | exact absurd rfl h | decide

theorem allMods_nodup_iff (subs : List Subnetwork) (h : ∀ s ∈ subs, Active s) :
    (allMods subs).Nodup ↔ subs.Nodup := by
  have h1 := flatMap_nodup_iff (f := mods) subs (fun s hs => (mods_active (h s hs)).1)
    (fun s hs => (mods_active (h s hs)).2.1) (fun s hs t ht hst => mods_disjoint (h s hs) (h t ht) hst)
  unfold allMods
  rw [nodup_append_iff, h1]
  constructor
  · exact fun h => h.2.1
  · intro hn
    refine ⟨by decide, hn, ?_⟩
    intro m hm hm'
    obtain ⟨s, hs, hms⟩ := List.mem_flatMap.1 hm'
    have := (mods_active (h s hs)).2.2 m hms
    simp at hm
    rcases hm with rfl | rfl
    · exact this.1 rfl
    · exact this.2 rfl

/-- The channels of a node. -/
def handlers (subs : List Subnetwork) : Handlers :=
  ⟨subs.contains .legacyHistory, subs.contains .beacon, subs.contains .state⟩

theorem portalMethods_ok (subs : List Subnetwork) (m : Module) (hm : m ∈ allMods subs) :
    portalMethods (handlers subs) m = .ok (methods m) := by
  have key : ∀ s, m ∈ mods s → s ∈ subs → portalMethods (handlers subs) m = .ok (methods m) := by
    intro s hms hs
    cases s <;> simp [mods, subnetworkModules] at hms
    · subst hms; simp [portalMethods, handlers, hs]
    · rcases hms with rfl | rfl <;> simp [portalMethods, handlers, hs]
    · subst hms; simp [portalMethods, handlers, hs]
  unfold allMods at hm
  rw [List.mem_append] at hm
  rcases hm with hm | hm
  · simp at hm
    rcases hm with rfl | rfl <;> rfl
  · obtain ⟨s, hs, hms⟩ := List.mem_flatMap.1 hm
    exact key s hms hs

theorem allMethods_ok (subs : List Subnetwork) : ∀ (ms : List Module), (∀ m ∈ ms, m ∈ allMods subs) →
    allMethods (handlers subs) ms = .ok (ms.map methods)
  | [], _ => rfl
  | m :: ms, h => by
    unfold allMethods
    rw [portalMethods_ok subs m (h m (by simp)), allMethods_ok subs ms (fun x hx => h x (by simp [hx]))]
    rfl

/-- The names of a node. -/
def names (subs : List Subnetwork) : List Str := (allMods subs).flatMap methods

theorem moduleFor_eq (subs : List Subnetwork) (h : ∀ s ∈ subs, Active s) :
    moduleFor (handlers subs) (allMods subs) = if subs.Nodup then .ok (names subs) else .panic := by
  unfold moduleFor
  rw [allMethods_ok subs _ (fun _ hm => hm)]
  show mergeAll _ [] = _
  rw [mergeAll_eq _ _ List.nodup_nil]
  · rw [List.nil_append]
    have h1 : ((allMods subs).map methods).flatten = names subs := by
      unfold names; rw [List.flatMap_def]
    rw [h1]
    have h2 : (names subs).Nodup ↔ subs.Nodup := by
      unfold names; rw [names_nodup_iff, allMods_nodup_iff subs h]
    by_cases hn : subs.Nodup
    · rw [if_pos hn, if_pos (h2.2 hn)]
    · rw [if_neg hn, if_neg (fun hc => hn (h2.1 hc))]
  · intro l hl
    obtain ⟨m, _, rfl⟩ := List.mem_map.1 hl
    exact methods_nodup m

theorem names_spec (subs : List Subnetwork) (h : ∀ s ∈ subs, Active s) (hn : subs.Nodup) :
    AnswersExactly subs (names subs) := by
  refine ⟨by unfold names; rw [names_nodup_iff, allMods_nodup_iff subs h]; exact hn, ?_⟩
  intro x
  unfold names allMods Answers
  simp only [List.flatMap_append, List.mem_append, List.flatMap_cons, List.flatMap_nil, List.append_nil,
    List.mem_flatMap]
  constructor
  · rintro ((h1 | h1) | ⟨m, ⟨s, hs, hms⟩, hx⟩)
    · exact Or.inl h1
    · exact Or.inr (Or.inl h1)
    · cases s <;> simp [mods, subnetworkModules] at hms
      · subst hms; exact Or.inr (Or.inr (Or.inl ⟨hs, hx⟩))
      · rcases hms with rfl | rfl
        · exact Or.inr (Or.inr (Or.inr (Or.inl ⟨hs, Or.inl hx⟩)))
        · exact Or.inr (Or.inr (Or.inr (Or.inl ⟨hs, Or.inr hx⟩)))
      · subst hms; exact Or.inr (Or.inr (Or.inr (Or.inr ⟨hs, hx⟩)))
  · rintro (h1 | h1 | ⟨hs, hx⟩ | ⟨hs, hx | hx⟩ | ⟨hs, hx⟩)
    · exact Or.inl (Or.inl h1)
    · exact Or.inl (Or.inr h1)
    · exact Or.inr ⟨_, ⟨_, hs, by simp [mods, subnetworkModules]⟩, hx⟩
    · exact Or.inr ⟨.legacyHistory, ⟨_, hs, by simp [mods, subnetworkModules]⟩, hx⟩
    · exact Or.inr ⟨.eth, ⟨_, hs, by simp [mods, subnetworkModules]⟩, hx⟩
    · exact Or.inr ⟨_, ⟨_, hs, by simp [mods, subnetworkModules]⟩, hx⟩

/-- What is served when nothing goes wrong. -/
def servedAs (c : Config) (a : Addr) : Served :=
  match c.transport with
  | .ipc => ⟨some (c.ipcPath, names c.subnetworks), none, none⟩
  | .http => ⟨none, some (a, names c.subnetworks),
      if c.ws then some (⟨0, c.wsPort⟩, names c.subnetworks) else none⟩

theorem launch_ok (resolve : Str → Option (List Addr)) (c : Config) (h : ∀ s ∈ c.subnetworks, Active s)
    (hn : c.subnetworks.Nodup) (a : Addr) (hipc : c.transport = .ipc → c.ipcPath.utf8 = true)
    (hhttp : c.transport = .http → ∃ rest, resolve c.httpAddress = some (a :: rest)) :
    launch resolve c (handlers c.subnetworks) = .ok (servedAs c a) := by
  unfold launch servedAs
  rw [modulesFor_active _ h]
  simp only
  rw [moduleFor_eq _ h, if_pos hn]
  cases ht : c.transport with
  | ipc => simp [Res.bind, hipc ht]
  | http =>
    obtain ⟨rest, hr⟩ := hhttp ht
    cases hw : c.ws with
    | false => simp [Res.bind, hr]
    | true =>
      simp only [Res.bind, Res.map, if_true, hr]
      have hid : identical (allMods c.subnetworks) (allMods c.subnetworks) = true := by
        simp [identical, List.all_eq_true]
      by_cases ha : a = ⟨0, c.wsPort⟩
      · rw [if_pos ha, if_pos hid, ← ha]
      · rw [if_neg ha]

theorem launch_panic (resolve : Str → Option (List Addr)) (c : Config) (h : ∀ s ∈ c.subnetworks, Active s)
    (hbad : ¬ c.subnetworks.Nodup ∨ (c.transport = .ipc ∧ c.ipcPath.utf8 = false) ∨
      (c.transport = .http ∧ (resolve c.httpAddress = none ∨ resolve c.httpAddress = some []))) :
    launch resolve c (handlers c.subnetworks) = .panic := by
  unfold launch
  rw [modulesFor_active _ h]
  simp only
  rw [moduleFor_eq _ h]
  by_cases hn : c.subnetworks.Nodup
  · rw [if_pos hn]
    rcases hbad with hb | ⟨ht, hb⟩ | ⟨ht, hb⟩
    · exact absurd hn hb
    · rw [ht]; simp [Res.bind, hb]
    · rw [ht]
      cases hw : c.ws <;> rcases hb with hb | hb <;> simp [Res.bind, Res.map, hb]
  · rw [if_neg hn]
    cases ht : c.transport <;> simp [Res.bind]

/-! ## Storage -/

theorem weightSum_nodup : ∀ (subs : List Subnetwork), subs.Nodup →
    Verif.Props.weightSum subs =
      (if .legacyHistory ∈ subs then 1 else 0) + (if .state ∈ subs then 1 else 0)
  | [], _ => rfl
  | s :: subs, h => by
    have hn := List.nodup_cons.1 h
    have ih := weightSum_nodup subs hn.2
    have hs := hn.1
    unfold Verif.Props.weightSum Verif.Props.weightOf
    rw [ih]
    by_cases h1 : s = .legacyHistory
    · subst h1
      simp [hs]
    · by_cases h2 : s = .state
      · subst h2
        simp [hs]
        omega
      · have h1' : ¬ Subnetwork.legacyHistory = s := fun h => h1 h.symm
        have h2' : ¬ Subnetwork.state = s := fun h => h2 h.symm
        simp [h1, h2, h1', h2']

end Verif.NodeConfig
